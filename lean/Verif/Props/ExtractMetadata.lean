import Verif.Model.ExtractMetadata
import Mathlib.Logic.Function.Iterate
import Mathlib.Data.List.Forall2

/-!
# C67: the stage `extract_metadata` and crashes
-/
set_option linter.unusedSectionVars false
set_option linter.unusedSimpArgs false
namespace Verif.ExtractMetadata
variable {Img C T : Type} [DecidableEq Img]

/-- What an iteration does to the camera models and the state of the process. -/
def feed (e : Env Img C T) (p : Dict String C × T) (d : Meta) : Option (Dict String C × T) :=
  match camId d with
  | none => none
  | some k =>
    if p.1.has k then some p
    else
      match e.camOf p.2 d with
      | (none, _) => none
      | (some c, t) => some (p.1.set k c, t)

theorem endIter_some (e : Env Img C T) (s : St Img C T) (d : Meta) (todo : List Img)
    (p : Dict String C × T) (h : feed e (s.models, s.table) d = some p) :
    endIter e s d todo = { s with phase := .loop todo, models := p.1, table := p.2 } := by
  unfold feed at h
  unfold endIter
  split at h
  · cases h
  · rename_i k hk
    simp only [hk]
    split at h
    · rename_i hh; cases h; simp [hh]
    · rename_i hh
      simp only [hh]
      split at h
      · cases h
      · rename_i c t hc
        cases h
        simp [hc]

theorem endIter_none (e : Env Img C T) (s : St Img C T) (d : Meta) (todo : List Img)
    (h : feed e (s.models, s.table) d = none) : (endIter e s d todo).phase = .failed := by
  unfold feed at h
  unfold endIter
  split at h
  · rename_i hk; simp [hk]
  · rename_i k hk
    simp only [hk]
    split at h
    · cases h
    · rename_i hh
      simp only [hh]
      split at h
      · rename_i t hc; simp [hc]
      · cases h

theorem endIter_disk (e : Env Img C T) (s : St Img C T) (d : Meta) (todo : List Img) :
    (endIter e s d todo).disk = s.disk := by
  unfold endIter
  repeat' split
  all_goals rfl

theorem endIter_phase (e : Env Img C T) (s : St Img C T) (d : Meta) (todo : List Img) :
    (endIter e s d todo).phase = .loop todo ∨ (endIter e s d todo).phase = .failed := by
  unfold endIter
  repeat' split
  all_goals first | exact Or.inl rfl | exact Or.inr rfl

/-- The images `p` have been processed and their files hold `ds`. -/
def Past (e : Env Img C T) (s : St Img C T) (p : List Img) (ds : List Meta) : Prop :=
  List.Forall₂ (fun i d => s.disk.exif i = some (.whole d)) p ds ∧
    ds.foldlM (feed e) ([], e.t0) = some (s.models, s.table)

/-- What holds after any number of steps. -/
def Inv (e : Env Img C T) (s : St Img C T) : Prop :=
  match s.phase with
  | .loop todo => ∃ p ds, e.images = p ++ todo ∧ Past e s p ds
  | .writing i d todo => ∃ p ds, e.images = p ++ i :: todo ∧ Past e s p ds ∧ s.disk.exif i = some .torn ∧
      fresh e i = some d
  | .saving => ∃ ds, Past e s e.images ds ∧ s.disk.cams = some .torn
  | .done => ∃ ds, Past e s e.images ds ∧ s.disk.cams = some (.whole (override e s.models))
  | .failed => ∃ m, runN e m s.disk = s

theorem runN_succ (e : Env Img C T) (n : Nat) (d : Disk Img C) :
    runN e (n + 1) d = step e (runN e n d) := Function.iterate_succ_apply' _ _ _

/-- A new run on a disk with the files of `p` gets past `p` without writing. -/
theorem runN_past (e : Env Img C T) (d : Disk Img C) (p todo : List Img) (ds : List Meta)
    (q : Dict String C × T) (hi : e.images = p ++ todo)
    (hf : List.Forall₂ (fun i x => d.exif i = some (.whole x)) p ds)
    (hd : ds.foldlM (feed e) ([], e.t0) = some q) :
    runN e p.length d = { disk := d, phase := .loop todo, models := q.1, table := q.2 } := by
  have key : ∀ (p : List Img) (ds : List Meta) (m : Dict String C) (t : T),
      List.Forall₂ (fun i x => d.exif i = some (.whole x)) p ds →
      ds.foldlM (feed e) (m, t) = some q →
      (step e)^[p.length] { disk := d, phase := .loop (p ++ todo), models := m, table := t } =
        { disk := d, phase := .loop todo, models := q.1, table := q.2 } := by
    intro p ds m t hf
    induction hf generalizing m t with
    | nil => intro h; simp at h; subst h; rfl
    | @cons i x p ds hx _ ih =>
      intro h
      rw [List.foldlM_cons] at h
      cases hq : feed e (m, t) x with
      | none => simp [hq] at h
      | some r =>
        rw [hq] at h
        rw [List.length_cons, Function.iterate_succ_apply]
        have : step e { disk := d, phase := .loop (i :: p ++ todo), models := m, table := t } =
            { disk := d, phase := .loop (p ++ todo), models := r.1, table := r.2 } := by
          simp only [step, List.cons_append, hx]
          rw [endIter_some _ _ _ _ r hq]
        rw [this]
        exact ih _ _ h
  unfold runN start
  rw [hi]
  exact key p ds [] e.t0 hf hd

theorem past_snoc (e : Env Img C T) (p : List Img) (ds : List Meta) (s : St Img C T) (i : Img) (d : Meta)
    (r : Dict String C × T) (s' : St Img C T) (h : Past e s p ds)
    (hfile : List.Forall₂ (fun i d => s'.disk.exif i = some (.whole d)) p ds)
    (hi : s'.disk.exif i = some (.whole d)) (hr : feed e (s.models, s.table) d = some r)
    (hs : s'.models = r.1 ∧ s'.table = r.2) : Past e s' (p ++ [i]) (ds ++ [d]) := by
  refine ⟨List.rel_append hfile (List.Forall₂.cons hi List.Forall₂.nil), ?_⟩
  rw [List.foldlM_append, h.2]
  simp [hr, hs.1, hs.2]

theorem forall₂_set (d : Disk Img C) (p : List Img) (ds : List Meta) (i : Img) (f : File Meta)
    (h : List.Forall₂ (fun i x => d.exif i = some (.whole x)) p ds)
    (hi : ∀ x, d.exif i ≠ some (.whole x)) :
    List.Forall₂ (fun j x => (setExif d i f).exif j = some (.whole x)) p ds := by
  refine List.Forall₂.imp ?_ h
  intro j x hj
  simp only [setExif]
  rw [if_neg]
  · exact hj
  · rintro rfl; exact hi _ hj

theorem inv_step (e : Env Img C T) (s : St Img C T) (h : Inv e s) : Inv e (step e s) := by
  obtain ⟨D, ph, M, t⟩ := s
  cases ph with
  | loop todo =>
    obtain ⟨p, ds, hi, hp⟩ := h
    cases todo with
    | nil =>
      rw [List.append_nil] at hi
      refine ⟨ds, ?_, rfl⟩
      rw [hi]
      exact hp
    | cons i todo =>
      cases hf : D.exif i with
      | none =>
        cases hfr : fresh e i with
        | none =>
          simp only [step, hf, hfr]
          refine ⟨p.length + 1, ?_⟩
          rw [runN_succ, runN_past e D p _ ds _ hi hp.1 hp.2]
          simp only [step, hf, hfr]
        | some d =>
          simp only [step, hf, hfr]
          refine ⟨p, ds, hi, ⟨forall₂_set D p ds i .torn hp.1 (by simp [hf]), hp.2⟩, ?_, hfr⟩
          simp [setExif]
      | some f =>
        cases f with
        | torn =>
          simp only [step, hf]
          refine ⟨p.length + 1, ?_⟩
          rw [runN_succ, runN_past e D p _ ds _ hi hp.1 hp.2]
          simp only [step, hf]
        | whole d =>
          simp only [step, hf]
          cases hq : feed e (M, t) d with
          | some r =>
            rw [endIter_some _ _ _ _ r hq]
            refine ⟨p ++ [i], ds ++ [d], by simp [hi], ?_⟩
            exact past_snoc e p ds _ i d r _ hp hp.1 hf hq ⟨rfl, rfl⟩
          | none =>
            have hph := endIter_none e ⟨D, .loop (i :: todo), M, t⟩ d todo hq
            unfold Inv
            rw [hph]
            refine ⟨p.length + 1, ?_⟩
            rw [endIter_disk, runN_succ, runN_past e D p _ ds _ hi hp.1 hp.2]
            simp only [step, hf]
  | writing i d todo =>
    obtain ⟨p, ds, hi, hp, ht, hfr⟩ := h
    simp only [step]
    have hfile := forall₂_set D p ds i (.whole d) hp.1 (by simp only [] at ht; simp [ht])
    have hself : (setExif D i (.whole d)).exif i = some (.whole d) := by simp [setExif]
    cases hq : feed e (M, t) d with
    | some r =>
      rw [endIter_some _ _ _ _ r hq]
      refine ⟨p ++ [i], ds ++ [d], by simp [hi], ?_⟩
      exact past_snoc e p ds _ i d r _ hp hfile hself hq ⟨rfl, rfl⟩
    | none =>
      have hph := endIter_none e ⟨setExif D i (.whole d), .writing i d todo, M, t⟩ d todo hq
      unfold Inv
      rw [hph]
      refine ⟨p.length + 1, ?_⟩
      rw [endIter_disk, runN_succ, runN_past e _ p _ ds _ hi hfile hp.2]
      simp only [step, hself]
      unfold endIter
      repeat' split
      all_goals first | rfl | skip
      all_goals simp_all [feed]
  | saving =>
    obtain ⟨ds, hp, hc⟩ := h
    exact ⟨ds, hp, rfl⟩
  | done => exact h
  | failed => exact h

theorem inv_start (e : Env Img C T) (d : Disk Img C) : Inv e (start e d) :=
  ⟨[], [], rfl, List.Forall₂.nil, rfl⟩

theorem inv_runN (e : Env Img C T) (n : Nat) (d : Disk Img C) : Inv e (runN e n d) := by
  induction n with
  | zero => exact inv_start e d
  | succ n ih => rw [runN_succ]; exact inv_step e _ ih

/-- Steps left. -/
def left : Phase Img → Nat
  | .loop todo => 2 * todo.length + 2
  | .writing _ _ todo => 2 * todo.length + 3
  | .saving => 1
  | .done => 0
  | .failed => 0

theorem left_step (e : Env Img C T) (s : St Img C T) : left (step e s).phase ≤ left s.phase - 1 := by
  obtain ⟨D, ph, M, t⟩ := s
  cases ph with
  | loop todo =>
    cases todo with
    | nil => simp [step, left]
    | cons i todo =>
      have h1 : ∀ s d, left (endIter e s d todo).phase ≤ 2 * todo.length + 2 := by
        intro s d
        rcases endIter_phase e s d todo with h | h <;> simp [h, left]
      cases hf : D.exif i with
      | none =>
        cases hfr : fresh e i <;> simp [step, hf, hfr, left] <;> omega
      | some f =>
        cases f with
        | torn => simp [step, hf, left]
        | whole d =>
          have := h1 ⟨D, .loop (i :: todo), M, t⟩ d
          simp only [step, hf]
          refine Nat.le_trans this ?_
          simp only [left, List.length_cons]
          omega
  | writing i d todo =>
    have h1 := endIter_phase e ⟨setExif D i (.whole d), .writing i d todo, M, t⟩ d todo
    rcases h1 with h | h <;> simp [step, h, left]
  | saving => simp [step, left]
  | done => simp [step, left]
  | failed => simp [step, left]

theorem left_iter (e : Env Img C T) (n : Nat) (s : St Img C T) :
    left ((step e)^[n] s).phase ≤ left s.phase - n := by
  induction n generalizing s with
  | zero => simp
  | succ n ih =>
    rw [Function.iterate_succ_apply]
    have h1 := ih (step e s)
    have h2 := left_step e s
    omega

theorem ended (s : St Img C T) (h : left s.phase = 0) : s.phase = .done ∨ s.phase = .failed := by
  cases hp : s.phase <;> simp [hp, left] at h ⊢

/-- C67. A run ends, and more steps change nothing. -/
theorem C67_ends (e : Env Img C T) (d : Disk Img C) :
    ((run e d).phase = .done ∨ (run e d).phase = .failed) ∧
      ∀ n, 2 * e.images.length + 2 ≤ n → runN e n d = run e d := by
  have h0 : left (run e d).phase = 0 := by
    have := left_iter e (2 * e.images.length + 2) (start e d)
    have h2 : left (start e d).phase = 2 * e.images.length + 2 := rfl
    rw [h2, Nat.sub_self] at this
    exact Nat.le_zero.1 this
  have h1 := ended _ h0
  refine ⟨h1, ?_⟩
  intro n hn
  obtain ⟨k, rfl⟩ := Nat.exists_eq_add_of_le hn
  clear hn
  induction k with
  | zero => rfl
  | succ k ih =>
    rw [← Nat.add_assoc, runN_succ, ih]
    rcases h1 with h | h <;> simp [step, h]

theorem run_of_reach (e : Env Img C T) (d d' : Disk Img C) (n m : Nat) (h : runN e n d = runN e m d') :
    run e d = run e d' := by
  have hk : ∀ k, runN e (k + n) d = runN e (k + m) d' := by
    intro k
    unfold runN at h ⊢
    rw [Function.iterate_add_apply, Function.iterate_add_apply, h]
  rw [← (C67_ends e d).2 (2 * e.images.length + 2 + n) (by omega),
    ← (C67_ends e d').2 (2 * e.images.length + 2 + m) (by omega), hk]

/-- A run that is not inside a write of metadata can be reproduced from the disk it left. -/
theorem reproduce (e : Env Img C T) (s : St Img C T) (h : Inv e s)
    (hw : ∀ i d todo, s.phase ≠ .writing i d todo) : ∃ m, runN e m s.disk = s := by
  obtain ⟨D, ph, M, t⟩ := s
  cases ph with
  | loop todo =>
    obtain ⟨p, ds, hi, hp⟩ := h
    exact ⟨_, runN_past e D p todo ds _ hi hp.1 hp.2⟩
  | writing i d todo => exact absurd rfl (hw i d todo)
  | saving =>
    obtain ⟨ds, hp, hc⟩ := h
    refine ⟨e.images.length + 1, ?_⟩
    simp only at hc
    rw [runN_succ, runN_past e D e.images [] ds _ (by simp) hp.1 hp.2]
    simp only [step, ← hc]
  | done =>
    obtain ⟨ds, hp, hc⟩ := h
    refine ⟨e.images.length + 1 + 1, ?_⟩
    simp only at hc
    rw [runN_succ, runN_succ, runN_past e D e.images [] ds _ (by simp) hp.1 hp.2]
    simp only [step, ← hc]
  | failed => exact h

/-- A torn file is never repaired. -/
theorem torn_stays (e : Env Img C T) (d : Disk Img C) (i : Img) (h : d.exif i = some .torn) (n : Nat) :
    (runN e n d).disk.exif i = some .torn ∧ ∀ x todo, (runN e n d).phase ≠ .writing i x todo := by
  induction n with
  | zero => exact ⟨h, by simp [runN, start]⟩
  | succ n ih =>
    rw [runN_succ]
    generalize runN e n d = s at ih
    obtain ⟨D, ph, M, t⟩ := s
    obtain ⟨h1, h2⟩ := ih
    simp only at h1 h2
    cases ph with
    | loop todo =>
      cases todo with
      | nil => simp [step, h1]
      | cons j todo =>
        cases hf : D.exif j with
        | none =>
          cases hfr : fresh e j with
          | none => simp [step, hf, hfr, h1]
          | some x =>
            have hne : i ≠ j := by rintro rfl; rw [h1] at hf; cases hf
            refine ⟨?_, ?_⟩
            · simp [step, hf, hfr, setExif, hne, h1]
            · intro y l
              simp only [step, hf, hfr]
              intro hc
              cases hc
              exact hne rfl
        | some f =>
          cases f with
          | torn => simp [step, hf, h1]
          | whole x =>
            refine ⟨?_, ?_⟩
            · simp [step, hf, endIter_disk, h1]
            · intro y l
              simp only [step, hf]
              rcases endIter_phase e ⟨D, .loop (j :: todo), M, t⟩ x todo with hh | hh <;> simp [hh]
    | writing j x todo =>
      have hne : i ≠ j := by rintro rfl; exact h2 x todo rfl
      refine ⟨?_, ?_⟩
      · simp [step, endIter_disk, setExif, hne, h1]
      · intro y l
        simp only [step]
        rcases endIter_phase e ⟨setExif D j (.whole x), .writing j x todo, M, t⟩ x todo with hh | hh <;>
          simp [hh]
    | saving => simp [step, h1]
    | done => simp [step, h1]
    | failed => simp [step, h1]

/-- C67. A run that is stopped at any point where no file of metadata was left half written can be started
again: the end is that of the uninterrupted run, in the same state and with the same files. -/
theorem C67_resume (e : Env Img C T) (d : Disk Img C) (n : Nat)
    (h : ∀ i, (runN e n d).disk.exif i = some .torn → d.exif i = some .torn) :
    run e (runN e n d).disk = run e d := by
  have hinv := inv_runN e n d
  have hw : ∀ i x todo, (runN e n d).phase ≠ .writing i x todo := by
    intro i x todo hph
    have hinv' := hinv
    unfold Inv at hinv'
    rw [hph] at hinv'
    obtain ⟨p, ds, -, -, ht, -⟩ := hinv'
    exact (torn_stays e d i (h i ht) n).2 x todo hph
  obtain ⟨m, hm⟩ := reproduce e _ hinv hw
  exact run_of_reach e _ d m n hm

/-- C67. The same for any number of interrupted runs. -/
theorem C67_resume_many (e : Env Img C T) (d d' : Disk Img C) (hc : Crashes e d d')
    (h : ∀ i, d'.exif i ≠ some .torn) : run e d' = run e d := by
  induction hc with
  | refl => rfl
  | @run d' n _ ih =>
    have h' : ∀ i, d'.exif i ≠ some .torn := fun i hi => h i (torn_stays e d' i hi n).1
    rw [C67_resume e d' n (fun i hi => absurd hi (h i)), ih h']

/-- C67. If a crash left a file of metadata half written, every later run fails and never writes the camera
models, until someone removes the file. -/
theorem C67_torn (e : Env Img C T) (d d' : Disk Img C) (hc : Crashes e d d') (i : Img) (hi : i ∈ e.images)
    (ht : d.exif i = some .torn) : (run e d').phase = .failed ∧ d'.cams = d.cams := by
  have hstep : ∀ (d : Disk Img C), d.exif i = some .torn → ∀ n,
      (runN e n d).disk.cams = d.cams ∧ (runN e n d).phase ≠ .done ∧ (runN e n d).phase ≠ .saving := by
    intro d ht n
    induction n with
    | zero => simp [runN, start]
    | succ n ih =>
      rw [runN_succ]
      have hinv := inv_runN e n d
      have htn := (torn_stays e d i ht n).1
      generalize runN e n d = s at ih hinv htn
      obtain ⟨D, ph, M, t⟩ := s
      obtain ⟨h1, h2, h3⟩ := ih
      simp only at h1 h2 h3 htn
      cases ph with
      | loop todo =>
        cases todo with
        | nil =>
          exfalso
          obtain ⟨p, ds, hp, hpast⟩ := hinv
          rw [List.append_nil] at hp
          rw [hp] at hi
          have h4 : ∃ x, D.exif i = some (.whole x) := by
            have h5 := hpast.1
            clear hpast hp
            induction h5 with
            | nil => cases hi
            | cons hx _ ih =>
              rcases List.mem_cons.1 hi with rfl | h
              · exact ⟨_, hx⟩
              · exact ih h
          obtain ⟨x, h4⟩ := h4
          rw [htn] at h4
          cases h4
        | cons j todo =>
          cases hf : D.exif j with
          | none =>
            cases hfr : fresh e j <;> simp [step, hf, hfr, h1, setExif]
          | some f =>
            cases f with
            | torn => simp [step, hf, h1]
            | whole x =>
              simp only [step, hf, endIter_disk, h1, true_and]
              rcases endIter_phase e ⟨D, .loop (j :: todo), M, t⟩ x todo with hh | hh <;> simp [hh]
      | writing j x todo =>
        refine ⟨by simp [step, endIter_disk, setExif, h1], ?_⟩
        simp only [step]
        rcases endIter_phase e ⟨setExif D j (.whole x), .writing j x todo, M, t⟩ x todo with hh | hh <;>
          simp [hh]
      | saving => exact absurd rfl h3
      | done => exact absurd rfl h2
      | failed => simp [step, h1]
  have hall : d'.exif i = some .torn ∧ d'.cams = d.cams := by
    induction hc with
    | refl => exact ⟨ht, rfl⟩
    | run n _ ih => exact ⟨(torn_stays e _ i ih.1 n).1, by rw [(hstep _ ih.1 n).1, ih.2]⟩
  refine ⟨?_, hall.2⟩
  rcases (C67_ends e d').1 with h | h
  · exact absurd h (hstep d' hall.1 _).2.1
  · exact h

/-- C67. Such a file is what a crash between opening and closing it leaves. -/
theorem C67_torn_reached (e : Env Img C T) (d : Disk Img C) (i : Img) (l : List Img) (x : Meta)
    (hi : e.images = i :: l) (hd : d.exif i = none) (hx : fresh e i = some x) :
    (runN e 1 d).disk.exif i = some .torn := by
  simp [runN, start, step, hi, hd, hx, setExif]

/-- The metadata an image has at the end: its file if there is one, else the extracted one. -/
def metaOf (e : Env Img C T) (d : Disk Img C) (i : Img) : Option Meta :=
  match d.exif i with
  | some (.whole x) => some x
  | some .torn => none
  | none => fresh e i

/-- C67. An image whose metadata was saved before is not extracted again: changes to the image, to
`exif_overrides.json` or to the configuration have no effect on it. -/
theorem C67_stale (e e' : Env Img C T) (d : Disk Img C) (hT : e'.images = e.images)
    (hm : e'.camOf = e.camOf) (ht : e'.t0 = e.t0) (ho : e'.camOv = e.camOv) (hw : e'.withId = e.withId)
    (hf : ∀ i ∈ e.images, d.exif i = none → fresh e' i = fresh e i) : run e' d = run e d := by
  have hend : ∀ s x todo, endIter e' s x todo = endIter e s x todo := by
    intro s x todo; simp only [endIter, hm]
  have hov : ∀ m, override e' m = override e m := by intro m; simp only [override, ho, hw]
  have hall : ∀ n, runN e' n d = runN e n d ∧
      (∀ j, (runN e n d).disk.exif j = none → d.exif j = none) ∧
      (∀ todo, (runN e n d).phase = .loop todo → ∀ j ∈ todo, j ∈ e.images) ∧
      (∀ i x todo, (runN e n d).phase = .writing i x todo → ∀ j ∈ todo, j ∈ e.images) := by
    intro n
    induction n with
    | zero =>
      refine ⟨?_, ?_, ?_, ?_⟩
      · simp [runN, start, hT, ht]
      · intro j hj; exact hj
      · intro todo h j hj; simp only [runN, start, Function.iterate_zero, id] at h; cases h; exact hj
      · intro i x todo h; simp [runN, start] at h
    | succ n ih =>
      rw [runN_succ, runN_succ, ih.1]
      obtain ⟨-, hn, hl, hwr⟩ := ih
      generalize runN e n d = s at hn hl hwr
      obtain ⟨D, ph, M, t⟩ := s
      simp only at hn hl hwr
      have hend' : ∀ s x todo, (∀ j ∈ todo, j ∈ e.images) →
          (∀ todo', (endIter e s x todo).phase = .loop todo' → ∀ j ∈ todo', j ∈ e.images) ∧
          (∀ i x' todo', (endIter e s x todo).phase = .writing i x' todo' → ∀ j ∈ todo', j ∈ e.images) := by
        intro s x todo htodo
        rcases endIter_phase e s x todo with h | h
        · rw [h]
          refine ⟨fun todo' h' => ?_, fun i x' todo' h' => by cases h'⟩
          cases h'; exact htodo
        · rw [h]
          exact ⟨fun todo' h' => (by cases h'), fun i x' todo' h' => (by cases h')⟩
      cases ph with
      | loop todo =>
        have hto := hl todo rfl
        cases todo with
        | nil =>
          refine ⟨rfl, hn, ?_, ?_⟩
          · intro todo h; cases h
          · intro i x todo h; cases h
        | cons i todo =>
          have hto' : ∀ j ∈ todo, j ∈ e.images := fun j hj => hto j (List.mem_cons_of_mem _ hj)
          cases hfile : D.exif i with
          | none =>
            have hfr := hf i (hto i List.mem_cons_self) (hn i hfile)
            cases hx : fresh e i with
            | none =>
              rw [hx] at hfr
              simp only [step, hfile, hx, hfr]
              refine ⟨trivial, hn, ?_, ?_⟩
              · intro todo h; cases h
              · intro i x todo h; cases h
            | some x =>
              rw [hx] at hfr
              simp only [step, hfile, hx, hfr]
              refine ⟨trivial, ?_, ?_, ?_⟩
              · intro j hj
                refine hn j ?_
                simp only [setExif] at hj
                split at hj
                · cases hj
                · exact hj
              · intro todo h; cases h
              · intro i' x' todo' h; cases h; exact hto'
          | some f =>
            cases f with
            | torn =>
              simp only [step, hfile]
              refine ⟨trivial, hn, ?_, ?_⟩
              · intro todo h; cases h
              · intro i x todo h; cases h
            | whole x =>
              simp only [step, hfile, hend, endIter_disk]
              exact ⟨trivial, hn, (hend' _ x todo hto').1, (hend' _ x todo hto').2⟩
      | writing i x todo =>
        have hto := hwr i x todo rfl
        simp only [step, hend, endIter_disk]
        refine ⟨trivial, ?_, (hend' _ x todo hto).1, (hend' _ x todo hto).2⟩
        intro j hj
        refine hn j ?_
        simp only [setExif] at hj
        split at hj
        · cases hj
        · exact hj
      | saving =>
        simp only [step, hov]
        refine ⟨trivial, hn, ?_, ?_⟩
        · intro todo h; cases h
        · intro i x todo h; cases h
      | done =>
        simp only [step]
        refine ⟨trivial, hn, ?_, ?_⟩
        · intro todo h; cases h
        · intro i x todo h; cases h
      | failed =>
        simp only [step]
        refine ⟨trivial, hn, ?_, ?_⟩
        · intro todo h; cases h
        · intro i x todo h; cases h
  unfold run
  rw [hT]
  exact (hall _).1

theorem metaOf_congr (e : Env Img C T) (d d' : Disk Img C) (i : Img) (h : d'.exif i = d.exif i) :
    metaOf e d' i = metaOf e d i := by simp only [metaOf, h]

/-- What the image `i` has or is about to have. -/
def pending (e : Env Img C T) (s : St Img C T) (i : Img) : Option Meta :=
  match s.phase with
  | .writing j x _ => if i = j then some x else metaOf e s.disk i
  | _ => metaOf e s.disk i

theorem pending_endIter (e : Env Img C T) (s : St Img C T) (x : Meta) (todo : List Img) (i : Img) :
    pending e (endIter e s x todo) i = metaOf e s.disk i := by
  unfold pending
  rcases endIter_phase e s x todo with h | h <;> simp only [h, endIter_disk]

theorem pending_step (e : Env Img C T) (s : St Img C T) (i : Img) :
    pending e (step e s) i = pending e s i := by
  obtain ⟨D, ph, M, t⟩ := s
  cases ph with
  | loop todo =>
    cases todo with
    | nil => rfl
    | cons j todo =>
      cases hf : D.exif j with
      | none =>
        cases hfr : fresh e j with
        | none => simp only [step, hf, hfr, pending]
        | some x =>
          simp only [step, hf, hfr, pending]
          by_cases h : i = j
          · subst h; simp [metaOf, hf, hfr]
          · rw [if_neg h]
            refine metaOf_congr _ _ _ _ ?_
            simp [setExif, h]
      | some f =>
        cases f with
        | torn => simp only [step, hf, pending]
        | whole x =>
          simp only [step, hf]
          rw [pending_endIter]
          rfl
  | writing j x todo =>
    simp only [step]
    rw [pending_endIter]
    simp only [pending]
    by_cases h : i = j
    · subst h; simp [metaOf, setExif]
    · rw [if_neg h]
      refine metaOf_congr _ _ _ _ ?_
      simp [setExif, h]
  | saving => rfl
  | done => rfl
  | failed => rfl

theorem pending_run (e : Env Img C T) (d : Disk Img C) (n : Nat) (i : Img) :
    pending e (runN e n d) i = metaOf e d i := by
  induction n with
  | zero => rfl
  | succ n ih => rw [runN_succ, pending_step, ih]

/-- One image of the loop. -/
theorem advance (e : Env Img C T) (D : Disk Img C) (i : Img) (todo : List Img) (M : Dict String C) (t : T)
    (x : Meta) (r : Dict String C × T) (hx : metaOf e D i = some x) (hr : feed e (M, t) x = some r) :
    ∃ m, (step e)^[m] { disk := D, phase := .loop (i :: todo), models := M, table := t } =
      { disk := setExif D i (.whole x), phase := .loop todo, models := r.1, table := r.2 } := by
  cases hf : D.exif i with
  | none =>
    have hfr : fresh e i = some x := by simpa [metaOf, hf] using hx
    refine ⟨2, ?_⟩
    simp only [Function.iterate_succ_apply, Function.iterate_zero, id]
    simp only [step, hf, hfr]
    rw [endIter_some _ _ _ _ r hr]
    congr 1
    simp only [setExif]
    congr 1
    funext j
    by_cases h : j = i <;> simp [h]
  | some f =>
    cases f with
    | torn => simp [metaOf, hf] at hx
    | whole y =>
      have hy : y = x := by simpa [metaOf, hf] using hx
      subst hy
      refine ⟨1, ?_⟩
      simp only [Function.iterate_succ_apply, Function.iterate_zero, id]
      simp only [step, hf]
      rw [endIter_some _ _ _ _ r hr]
      congr 1
      obtain ⟨ex, cs⟩ := D
      simp only [setExif]
      congr 1
      funext j
      by_cases h : j = i
      · subst h; simpa using hf
      · simp [h]

theorem advance_all (e : Env Img C T) (mo : Img → Option Meta) (l : List Img) (ds : List Meta)
    (D : Disk Img C) (M : Dict String C) (t : T) (q : Dict String C × T)
    (hl : List.Forall₂ (fun i x => mo i = some x) l ds) (hmo : ∀ i, metaOf e D i = mo i)
    (hq : ds.foldlM (feed e) (M, t) = some q) :
    ∃ m D', (step e)^[m] { disk := D, phase := .loop l, models := M, table := t } =
      { disk := D', phase := .loop [], models := q.1, table := q.2 } ∧ D'.cams = D.cams ∧
      ∀ i, D'.exif i = if i ∈ l then (metaOf e D i).map .whole else D.exif i := by
  induction hl generalizing D M t with
  | nil =>
    simp at hq
    subst hq
    exact ⟨0, D, rfl, rfl, by simp⟩
  | @cons i x l ds hx hrest ih =>
    rw [List.foldlM_cons] at hq
    cases hr : feed e (M, t) x with
    | none => simp [hr] at hq
    | some r =>
      rw [hr] at hq
      obtain ⟨m1, hm1⟩ := advance e D i l M t x r (by rw [hmo, hx]) hr
      have hmeta : ∀ j, metaOf e (setExif D i (.whole x)) j = metaOf e D j := by
        intro j
        by_cases h : j = i
        · subst h; rw [hmo, hx]; simp [metaOf, setExif]
        · exact metaOf_congr _ _ _ _ (by simp [setExif, h])
      obtain ⟨m2, D', hm2, hc, hD⟩ := ih (setExif D i (.whole x)) r.1 r.2
        (fun j => by rw [hmeta, hmo]) hq
      refine ⟨m2 + m1, D', ?_, ?_, ?_⟩
      · rw [Function.iterate_add_apply, hm1, hm2]
      · rw [hc]; rfl
      · intro j
        rw [hD j, hmeta j]
        by_cases hj : j ∈ l
        · simp [hj]
        · by_cases h : j = i
          · subst h; simp [hj, hmo, hx, setExif]
          · simp [hj, h, setExif]

/-- The metadata `ds` of the images, in the order of the data set, and the camera models `q.1` made from
them. -/
theorem run_done (e : Env Img C T) (d : Disk Img C) (ds : List Meta) (q : Dict String C × T)
    (hl : List.Forall₂ (fun i x => metaOf e d i = some x) e.images ds)
    (hq : ds.foldlM (feed e) ([], e.t0) = some q) :
    (run e d).phase = .done ∧ (run e d).disk.cams = some (.whole (override e q.1)) ∧
      ∀ i, (run e d).disk.exif i = if i ∈ e.images then (metaOf e d i).map .whole else d.exif i := by
  obtain ⟨m, D', hm, -, hD⟩ := advance_all e (metaOf e d) e.images ds d [] e.t0 q hl (fun _ => rfl) hq
  have h2 : runN e (2 + m) d = ⟨{ D' with cams := some (.whole (override e q.1)) }, .done, q.1, q.2⟩ := by
    unfold runN start
    rw [Function.iterate_add_apply, hm]
    rfl
  have hrun : run e d = runN e (2 + m) d := by
    have h3 : ∀ k, runN e (k + (2 + m)) d = runN e (2 + m) d := by
      intro k
      induction k with
      | zero => rw [Nat.zero_add]
      | succ k ih =>
        rw [Nat.add_right_comm, runN_succ, ih, h2]
        rfl
    rw [← h3 (2 * e.images.length + 2)]
    exact ((C67_ends e d).2 _ (by omega)).symm
  rw [hrun, h2]
  exact ⟨rfl, rfl, hD⟩

/-- The cameras made from the metadata `ds` when the camera of an image is a function `f` of its
metadata. -/
theorem feed_spec (e : Env Img C T) (f : Meta → Option C) (hf : ∀ t x, (e.camOf t x).1 = f x)
    (ds : List Meta) (M : Dict String C) (t : T) (q : Dict String C × T)
    (hq : ds.foldlM (feed e) (M, t) = some q) :
    (∀ k, q.1.get? k = match M.get? k with
      | some c => some c
      | none => (ds.find? (fun x => camId x = some k)).bind f) ∧
    (∀ x ∈ ds, ∃ k, camId x = some k ∧ (q.1.get? k).isSome) := by
  induction ds generalizing M t with
  | nil =>
    simp at hq
    subst hq
    refine ⟨fun k => ?_, by simp⟩
    cases M.get? k <;> rfl
  | cons x ds ih =>
    rw [List.foldlM_cons] at hq
    cases hr : feed e (M, t) x with
    | none => simp [hr] at hq
    | some r =>
      rw [hr] at hq
      obtain ⟨h1, h2⟩ := ih r.1 r.2 hq
      unfold feed at hr
      cases hc : camId x with
      | none => simp [hc] at hr
      | some kx =>
        simp only [hc] at hr
        by_cases hh : M.has kx = true
        · simp only [hh, if_true] at hr
          cases hr
          refine ⟨fun k => ?_, ?_⟩
          · rw [h1 k]
            cases hM : M.get? k with
            | some c => rfl
            | none =>
              have hne : ¬ camId x = some k := by
                rw [hc]; rintro ⟨⟩
                unfold Dict.has at hh
                rw [hM] at hh
                cases hh
              simp [List.find?_cons, hne]
          · intro y hy
            rcases List.mem_cons.1 hy with rfl | hy
            · refine ⟨kx, hc, ?_⟩
              rw [h1 kx]
              unfold Dict.has at hh
              cases hM : M.get? kx with
              | some c => rfl
              | none => rw [hM] at hh; cases hh
            · exact h2 y hy
        · simp only [hh, Bool.false_eq_true, if_false] at hr
          have hMn : M.get? kx = none := by
            unfold Dict.has at hh
            cases hM : M.get? kx with
            | some c => rw [hM] at hh; exact absurd rfl hh
            | none => rfl
          have hfx := hf t x
          cases hcam : e.camOf t x with
          | mk co t' =>
            rw [hcam] at hr hfx
            cases co with
            | none => simp at hr
            | some c =>
              simp only [Option.some.injEq] at hr
              subst hr
              refine ⟨fun k => ?_, ?_⟩
              · rw [h1 k]
                simp only [Dict.get?_set]
                by_cases hk : kx = k
                · subst hk
                  simp [hMn, List.find?_cons, hc, ← hfx]
                · have hne : ¬ camId x = some k := by rw [hc]; simpa using hk
                  simp [hk, List.find?_cons, hne]
              · intro y hy
                rcases List.mem_cons.1 hy with rfl | hy
                · refine ⟨kx, hc, ?_⟩
                  rw [h1 kx]
                  simp
                · exact h2 y hy

/-- C67. A run that succeeds: every image has a file with its metadata, files of other images are untouched, and
the camera models before the overrides have one entry for each camera named in the metadata, made from
the first image that names it. -/
theorem C67_result (e : Env Img C T) (f : Meta → Option C) (hf : ∀ t x, (e.camOf t x).1 = f x)
    (d : Disk Img C) (hdone : (run e d).phase = .done) :
    ∃ (ds : List Meta) (models : Dict String C),
      List.Forall₂ (fun i x => metaOf e d i = some x) e.images ds ∧
      (∀ i, (run e d).disk.exif i = if i ∈ e.images then (metaOf e d i).map .whole else d.exif i) ∧
      (run e d).disk.cams = some (.whole (override e models)) ∧
      (∀ k, models.get? k = (ds.find? (fun x => camId x = some k)).bind f) ∧
      ∀ x ∈ ds, ∃ k, camId x = some k ∧ (models.get? k).isSome := by
  have hinv := inv_runN e (2 * e.images.length + 2) d
  have hpend := pending_run e d (2 * e.images.length + 2)
  change Inv e (run e d) at hinv
  change ∀ i, pending e (run e d) i = _ at hpend
  unfold Inv at hinv
  rw [hdone] at hinv
  obtain ⟨ds, hp, hc⟩ := hinv
  have hl : List.Forall₂ (fun i x => metaOf e d i = some x) e.images ds := by
    refine List.Forall₂.imp ?_ hp.1
    intro i x hx
    rw [← hpend i]
    unfold pending
    rw [hdone]
    simp only [metaOf, hx]
  have hr := run_done e d ds _ hl hp.2
  have hs := feed_spec e f hf ds _ _ _ hp.2
  exact ⟨ds, (run e d).models, hl, hr.2.2, hr.2.1, hs.1, hs.2⟩

theorem update_get (d o : Meta) (k : String) (h : o.get? k = none) : (update d o).get? k = d.get? k := by
  unfold update
  induction o generalizing d with
  | nil => rfl
  | cons p o ih =>
    obtain ⟨a, b⟩ := p
    by_cases ha : a = k
    · subst ha; simp [Dict.get?] at h
    · simp only [Dict.get?, ha, if_false] at h
      rw [List.foldl_cons, ih _ h, Dict.get?_set_ne _ _ ha]

/-- C67. An override of other fields of the metadata, such as the make, the model or the focal length, does not
change the camera the image belongs to. -/
theorem C67_override_camera (e : Env Img C T) (i : Img) (d o : Meta) (hd : e.ext i = some d)
    (ho : e.exifOv.get? i = some o) (hk : o.get? "camera" = none) :
    (fresh e i).map camId = some (camId d) := by
  simp only [fresh, hd, ho, Option.map_some, camId, update_get d o "camera" hk]

/-- C67. With an override for `all`, every camera of the images becomes a copy of it with its own name, and the
other overrides are ignored. -/
theorem C67_override_all (e : Env Img C T) (m o : Dict String C) (c : C) (ho : e.camOv = some o)
    (hc : o.get? "all" = some c) (k : String) :
    (override e m).get? k = (m.get? k).map (fun _ => e.withId k c) := by
  simp only [override, ho, hc, Dict.get?_mapVals]

/-- C67. Without it, the listed cameras replace those of the images and the others are kept. -/
theorem C67_override_some (e : Env Img C T) (m o : Dict String C) (hw : o.Wf) (ho : e.camOv = some o)
    (hc : o.get? "all" = none) (k : String) :
    (override e m).get? k = match o.get? k with
      | some c => some c
      | none => m.get? k := by
  simp only [override, ho, hc]
  clear ho hc
  induction o generalizing m with
  | nil => rfl
  | cons p o ih =>
    obtain ⟨a, b⟩ := p
    have hw' : Dict.Wf o := by
      unfold Dict.Wf at hw ⊢
      exact (List.nodup_cons.1 hw).2
    have ha : Dict.get? o a = none := by
      rw [Dict.get?_eq_none_iff]
      exact (List.nodup_cons.1 hw).1
    rw [List.foldl_cons, ih _ hw', Dict.get?_set]
    by_cases h : a = k
    · subst h; simp [Dict.get?, ha]
    · simp [Dict.get?, h]

/-- A data set with two images of one camera, where the second one already has a file. -/
def sample : Env Nat String Unit where
  images := [0, 1]
  ext := fun _ => some [("camera", .str "c"), ("focal_ratio", .num 1)]
  exifOv := [(0, [("focal_ratio", .num 2)])]
  camOf := fun _ d => (match d.get? "focal_ratio" with
    | some (.num q) => some (if q = 2 then "wide" else "tele")
    | _ => none, ())
  t0 := ()
  camOv := none
  withId := fun _ c => c
@[inherit_doc sample]
def sampleDisk : Disk Nat String where
  exif := fun i => if i = 1 then some (.whole [("camera", .str "c"), ("focal_ratio", .num 3)]) else none
  cams := none

/-- The hypotheses of `C67_result` and `C67_resume` are met, and those of `C67_torn` after a crash. -/
example : (run sample sampleDisk).phase = .done ∧
    (∀ t x, (sample.camOf t x).1 = (sample.camOf () x).1) ∧
    (∀ i, (runN sample 2 sampleDisk).disk.exif i = some .torn → sampleDisk.exif i = some .torn) ∧
    (runN sample 1 sampleDisk).disk.exif 0 = some .torn := by
  refine ⟨?_, fun _ _ => rfl, ?_, rfl⟩
  · rfl
  · intro i h
    exfalso
    have h2 : (runN sample 2 sampleDisk).disk.exif i =
        if i = 0 then some (.whole (update [("camera", .str "c"), ("focal_ratio", .num 1)]
          [("focal_ratio", .num 2)])) else if i = 0 then some .torn else sampleDisk.exif i := rfl
    rw [h2] at h
    by_cases h0 : i = 0
    · simp [h0] at h
    · by_cases h1 : i = 1
      · subst h1; simp [sampleDisk] at h
      · simp [h0, h1, sampleDisk] at h

end Verif.ExtractMetadata
