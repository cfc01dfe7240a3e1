import Verif.Model.Ransac
import Mathlib.Algebra.Order.Ring.Rat
import Mathlib.Algebra.Order.Field.Rat
import Mathlib.Data.List.Perm.Subperm
import Mathlib.Data.Finset.Card
import Mathlib.Algebra.Order.BigOperators.Group.List
import Mathlib.Tactic.Linarith

/-!
# C37 (robust estimation returns the best model it scored) and C38 (random samples)
-/
set_option linter.unusedSectionVars false
set_option linter.unusedSimpArgs false
namespace Verif.Robust
variable {ρ M D F : Type} [Field F] [LinearOrder F]

/-! ## C38: the sampler -/

theorem genIndex_spec (g : Rng ρ) (m : Nat) (prev : List Nat) (fuel : Nat) (r r' : ρ) (v : Nat)
    (h : genIndex g m prev fuel r = some (v, r')) : v ∉ prev ∧ v ≤ m := by
  induction fuel generalizing r with
  | zero => cases h
  | succ fuel ih =>
    rw [genIndex] at h
    split at h
    · exact ih _ h
    · rename_i hn
      have : g.next r m = (v, r') := by simpa using h
      have hr := g.inRange r m
      rw [this] at hn hr
      exact ⟨hn, hr⟩

theorem genSample_spec (g : Rng ρ) (m fuel n : Nat) (prev : List Nat) (r r' : ρ) (idx : List Nat)
    (hp : prev.Nodup) (hr : ∀ i ∈ prev, i ≤ m)
    (h : genSample g m fuel n prev r = some (idx, r')) :
    idx.length = prev.length + n ∧ idx.Nodup ∧ ∀ i ∈ idx, i ≤ m := by
  induction n generalizing prev r with
  | zero => simp [genSample] at h; rw [← h.1]; exact ⟨rfl, hp, hr⟩
  | succ n ih =>
    rw [genSample] at h
    split at h
    · cases h
    · rename_i v r2 hv
      obtain ⟨h1, h2⟩ := genIndex_spec g m prev fuel r r2 v hv
      have := ih (prev ++ [v]) r2 (by
        rw [List.nodup_append]
        refine ⟨hp, by simp, ?_⟩
        intro a ha b hb e
        rw [List.mem_singleton] at hb
        subst hb; subst e; exact h1 ha) (by
        intro i hi
        rcases List.mem_append.1 hi with hi | hi
        · exact hr i hi
        · rw [List.mem_singleton] at hi; subst hi; exact h2) h
      refine ⟨?_, this.2⟩
      rw [this.1]; simp; omega

/-- **C38.** Whenever the sampler returns, for every random stream, it returns the requested number
of pairwise distinct indices in the range. -/
theorem C38_sample (g : Rng ρ) (range_max fuel size : Nat) (r r' : ρ) (idx : List Nat)
    (h : genSample g range_max fuel size [] r = some (idx, r')) :
    idx.length = size ∧ idx.Nodup ∧ ∀ i ∈ idx, i ≤ range_max := by
  have := genSample_spec g range_max fuel size [] r r' idx List.nodup_nil (by simp) h
  simpa using this

/-- The data returned are at `size` distinct positions of the given data. -/
theorem C38_data (g : Rng ρ) (fuel size : Nat) (samples ds : List D) (r r' : ρ)
    (h : getSamples g fuel samples size r = some (ds, r')) :
    ∃ idx : List Nat, idx.length = size ∧ idx.Nodup ∧ (∀ i ∈ idx, i < samples.length) ∧
      ds = idx.filterMap (fun i => samples[i]?) ∧ ds.length = size := by
  unfold getSamples at h
  split at h
  · split at h
    · rename_i h1 h2
      cases h
      exact ⟨[], by simp [h2]⟩
    · cases h
  · rename_i hne
    split at h
    · cases h
    · rename_i idx r2 hg
      obtain ⟨h1, h2, h3⟩ := C38_sample g _ _ _ _ _ _ hg
      cases h
      have hlt : ∀ i ∈ idx, i < samples.length := by
        intro i hi; have := h3 i hi; omega
      refine ⟨idx, h1, h2, hlt, rfl, ?_⟩
      rw [← h1]
      clear h1 h2 h3 hg
      induction idx with
      | nil => rfl
      | cons a t ih =>
        have ha := hlt a (by simp)
        rw [List.filterMap_cons, List.getElem?_eq_getElem ha]
        simp only [List.length_cons]
        rw [ih (fun i hi => hlt i (by simp [hi]))]

/-- The generator state after `n` draws from `0..m`. -/
def Rng.after (g : Rng ρ) (m : Nat) : Nat → ρ → ρ
  | 0, r => r
  | n + 1, r => g.after m n (g.next r m).2

/-- From every state, every value of the range comes up eventually. -/
def Rng.Fair (g : Rng ρ) : Prop :=
  ∀ r m v, v ≤ m → ∃ n, (g.next (g.after m n r) m).1 = v

theorem genIndex_mono (g : Rng ρ) (m : Nat) (prev : List Nat) (fuel fuel' : Nat) (r : ρ)
    (h : (genIndex g m prev fuel r).isSome) (hle : fuel ≤ fuel') :
    genIndex g m prev fuel' r = genIndex g m prev fuel r := by
  induction fuel generalizing fuel' r with
  | zero => cases h
  | succ fuel ih =>
    obtain ⟨f', rfl⟩ : ∃ f', fuel' = f' + 1 := ⟨fuel' - 1, by omega⟩
    simp only [genIndex] at h ⊢
    split
    · rename_i hc
      rw [if_pos hc] at h
      exact ih f' _ h (by omega)
    · rfl

theorem genIndex_terminates (g : Rng ρ) (hf : g.Fair) (m : Nat) (prev : List Nat)
    (hlt : prev.length ≤ m) (r : ρ) : ∃ fuel, (genIndex g m prev fuel r).isSome := by
  have hex : ∃ v, v ≤ m ∧ v ∉ prev := by
    by_contra hc
    push Not at hc
    have hsub : List.range (m + 1) ⊆ prev := by
      intro v hv
      exact hc v (by rw [List.mem_range] at hv; omega)
    have := (List.Nodup.subperm List.nodup_range hsub).length_le
    rw [List.length_range] at this
    omega
  obtain ⟨v, hv, hnp⟩ := hex
  obtain ⟨n, hn⟩ := hf r m v hv
  refine ⟨n + 1, ?_⟩
  clear hlt
  induction n generalizing r with
  | zero =>
    simp only [Rng.after] at hn
    simp [genIndex, hn, hnp]
  | succ n ih =>
    rw [genIndex]
    split
    · exact ih _ hn
    · simp

theorem genSample_mono (g : Rng ρ) (m fuel fuel' n : Nat) (prev : List Nat) (r : ρ)
    (h : (genSample g m fuel n prev r).isSome) (hle : fuel ≤ fuel') :
    genSample g m fuel' n prev r = genSample g m fuel n prev r := by
  induction n generalizing prev r with
  | zero => rfl
  | succ n ih =>
    simp only [genSample] at h ⊢
    cases hg : genIndex g m prev fuel r with
    | none => rw [hg] at h; cases h
    | some q =>
      rw [genIndex_mono g m prev fuel fuel' r (by rw [hg]; rfl) hle, hg]
      rw [hg] at h
      exact ih _ _ h

theorem genSample_terminates (g : Rng ρ) (hf : g.Fair) (m n : Nat) (prev : List Nat) (r : ρ)
    (hle : prev.length + n ≤ m + 1) : ∃ fuel, (genSample g m fuel n prev r).isSome := by
  induction n generalizing prev r with
  | zero => exact ⟨0, rfl⟩
  | succ n ih =>
    obtain ⟨f1, h1⟩ := genIndex_terminates g hf m prev (by omega) r
    obtain ⟨⟨v, r'⟩, hv⟩ := Option.isSome_iff_exists.1 h1
    obtain ⟨f2, h2⟩ := ih (prev ++ [v]) r' (by simp; omega)
    refine ⟨max f1 f2, ?_⟩
    simp only [genSample]
    rw [genIndex_mono g m prev f1 _ r h1 (by omega), hv]
    simp only
    rw [genSample_mono g m f2 _ n _ _ h2 (by omega)]
    exact h2

/-- The sampler returns (with a fair generator) exactly when there are at least as many data as
asked for; with fewer it draws forever. -/
theorem C38_termination (g : Rng ρ) (hf : g.Fair) (samples : List D) (size : Nat) (r : ρ) :
    (∃ fuel, (getSamples g fuel samples size r).isSome) ↔ size ≤ samples.length := by
  constructor
  · rintro ⟨fuel, h⟩
    obtain ⟨⟨ds, r'⟩, hq⟩ := Option.isSome_iff_exists.1 h
    obtain ⟨idx, h1, h2, h3, _⟩ := C38_data g fuel size samples ds r r' hq
    rw [← h1]
    have : idx ⊆ List.range samples.length := by
      intro i hi; rw [List.mem_range]; exact h3 i hi
    have := (List.Nodup.subperm h2 this).length_le
    simpa using this
  · intro h
    by_cases h0 : samples.length = 0
    · refine ⟨0, ?_⟩
      have : size = 0 := by omega
      simp [getSamples, h0, this]
    · obtain ⟨fuel, hf'⟩ := genSample_terminates g hf (samples.length - 1) size [] r
        (by simp; omega)
      refine ⟨fuel, ?_⟩
      unfold getSamples
      rw [if_neg h0]
      obtain ⟨⟨idx, r'⟩, hq⟩ := Option.isSome_iff_exists.1 hf'
      rw [hq]; rfl

/-- A fair generator exists: a counter. -/
def counterRng : Rng Nat where
  next := fun r m => (r % (m + 1), r + 1)
  inRange := fun r m => Nat.lt_succ_iff.1 (Nat.mod_lt _ (Nat.succ_pos _))

theorem counter_after (m n r : Nat) : counterRng.after m n r = r + n := by
  induction n generalizing r with
  | zero => rfl
  | succ n ih => rw [Rng.after, ih]; simp [counterRng]; omega

theorem counter_fair : counterRng.Fair := by
  intro r m v hv
  refine ⟨(m + 1) * (r + 1) + v - r, ?_⟩
  rw [counter_after]
  have hge : r ≤ (m + 1) * (r + 1) := by nlinarith
  have : r + ((m + 1) * (r + 1) + v - r) = v + (m + 1) * (r + 1) := by omega
  simp only [counterRng, this, Nat.add_mul_mod_self_left]
  exact Nat.mod_eq_of_lt (by omega)

example : genSample counterRng 4 10 3 [] 2 = some ([2, 3, 4], 5) := by decide

/-! ## C37 -/

/-- What is known of a run: everything scored was scored by the scorer, the best is at least as
good as all of it, and it is one of them unless nothing non negative was scored. -/
structure Good (p : Problem M D F) (s : State ρ M F) : Prop where
  scored : ∀ e ∈ s.trace, e.2 = scoreOf p e.1
  upper : ∀ e ∈ s.trace, e.2.1 ≤ s.best.score
  attained : (s.best = ⟨0, [], none, none⟩ ∧ ∀ e ∈ s.trace, e.2.1 < 0) ∨
    ∃ m m0, s.best.loModel = some m ∧ (m, s.best.score, s.best.inliers) ∈ s.trace ∧
      s.best.model = some m0 ∧ ∃ q, (m0, q) ∈ s.trace
  nonneg : 0 ≤ s.best.score

theorem better_score (a b : ScoreInfo M F) : (better a b).score = max a.score b.score := by
  unfold better
  split
  · rename_i h; rw [max_eq_right h.le]
  · rename_i h; rw [max_eq_left (not_lt.1 h)]

theorem Good.add {p : Problem M D F} {s : State ρ M F} (h : Good p s) (m : M) (mod : Option M)
    (hmod : mod = some m ∨ (mod = s.best.model ∧ s.best.model ≠ none)) :
    Good p { s with
      best := better ⟨(scoreOf p m).1, (scoreOf p m).2, mod, some m⟩ s.best
      trace := s.trace ++ [(m, scoreOf p m)] } := by
  constructor
  · intro e he
    rcases List.mem_append.1 he with he | he
    · exact h.scored e he
    · rw [List.mem_singleton] at he; subst he; rfl
  · intro e he
    rw [better_score]
    rcases List.mem_append.1 he with he | he
    · exact le_max_of_le_right (h.upper e he)
    · rw [List.mem_singleton] at he; subst he; exact le_max_left _ _
  · simp only [better]
    split
    · rename_i hlt
      rcases h.attained with ⟨h1, h2⟩ | ⟨m', m0, h1, h2, h3, q, h4⟩
      · left
        refine ⟨h1, ?_⟩
        intro e he
        rcases List.mem_append.1 he with he | he
        · exact h2 e he
        · rw [List.mem_singleton] at he; subst he
          rw [h1] at hlt; exact hlt
      · exact Or.inr ⟨m', m0, h1, List.mem_append_left _ h2, h3, q, List.mem_append_left _ h4⟩
    · right
      rcases hmod with rfl | ⟨rfl, hne⟩
      · exact ⟨m, m, rfl, by simp, rfl, scoreOf p m, by simp⟩
      · rcases h.attained with ⟨h1, h2⟩ | ⟨m', m0, h1, h2, h3, q, h4⟩
        · rw [h1] at hne; exact absurd rfl hne
        · exact ⟨m, m0, rfl, by simp, h3, q, List.mem_append_left _ h4⟩
  · rw [better_score]; exact le_max_of_le_right h.nonneg

theorem better_model_ne (a b : ScoreInfo M F) (ha : a.model ≠ none) (hb : b.model ≠ none) :
    (better a b).model ≠ none := by
  unfold better; split <;> assumption

theorem loFold_good {p : Problem M D F} (ms : List M) (s : State ρ M F) (h : Good p s)
    (hm : s.best.model ≠ none) :
    Good p (ms.foldl (loScore p) s) ∧ (ms.foldl (loScore p) s).best.model ≠ none ∧
      (ms.foldl (loScore p) s).drawn = s.drawn ∧
      (∀ e ∈ s.trace, e ∈ (ms.foldl (loScore p) s).trace) := by
  induction ms generalizing s with
  | nil => exact ⟨h, hm, rfl, fun _ h => h⟩
  | cons a t ih =>
    rw [List.foldl_cons]
    obtain ⟨h1, h2, h3, h4⟩ := ih (loScore p s a) (h.add a s.best.model (Or.inr ⟨rfl, hm⟩))
      (better_model_ne _ _ hm hm)
    exact ⟨h1, h2, h3, fun e he => h4 e (List.mem_append_left _ he)⟩

theorem Good.rng {p : Problem M D F} {s : State ρ M F} (h : Good p s) (r : ρ) (d : Nat) :
    Good p { s with rng := r, drawn := d } := ⟨h.scored, h.upper, h.attained, h.nonneg⟩

theorem loLoop_good {p : Problem M D F} (g : Rng ρ) (fuel k : Nat) (s s' : State ρ M F)
    (h : Good p s) (hm : s.best.model ≠ none) (he : loLoop p g fuel k s = some s') :
    Good p s' ∧ s'.drawn = s.drawn ∧ ∀ e ∈ s.trace, e ∈ s'.trace := by
  induction k generalizing s with
  | zero => cases he; exact ⟨h, rfl, fun _ h => h⟩
  | succ k ih =>
    rw [loLoop] at he
    split at he
    · cases he
    · rename_i ds r' _
      obtain ⟨h1, h2, h3, h4⟩ := loFold_good (p.estimateNonMinimal ds) { s with rng := r' }
        (h.rng r' s.drawn) hm
      obtain ⟨g1, g2, g3⟩ := ih _ h1 h2 he
      exact ⟨g1, g2.trans h3, fun e he => g3 e (h4 e he)⟩

theorem scoreModel_good {p : Problem M D F} (g : Rng ρ) (fuel : Nat) (s s' : State ρ M F) (m : M)
    (h : Good p s) (he : scoreModel p g fuel s m = some s') :
    Good p s' ∧ s'.drawn = s.drawn ∧ (∀ e ∈ s.trace, e ∈ s'.trace) ∧
      (m, scoreOf p m) ∈ s'.trace := by
  have hadd := h.add m (some m) (Or.inl rfl)
  unfold scoreModel at he
  simp only at he
  split at he
  · rename_i hc
    have hne : (better (⟨(scoreOf p m).1, (scoreOf p m).2, some m, some m⟩ : ScoreInfo M F)
        s.best).model ≠ none := by
      unfold better
      split
      · rename_i hlt
        have := hc.1
        simp only [better_score] at this
        exact absurd hlt (not_lt.2 (max_eq_left_iff.1 this.symm))
      · simp
    obtain ⟨h1, h2, h3⟩ := loLoop_good g fuel _ _ s' hadd hne he
    exact ⟨h1, h2, fun e he => h3 e (List.mem_append_left _ he), h3 _ (by simp)⟩
  · cases he
    exact ⟨hadd, rfl, fun e he => List.mem_append_left _ he, by simp⟩

theorem modelsLoop_good {p : Problem M D F} (g : Rng ρ) (fuel i : Nat) (ms : List M)
    (s s' : State ρ M F) (b : Bool) (h : Good p s)
    (he : modelsLoop p g fuel i ms s = some (s', b)) :
    Good p s' ∧ s'.drawn = s.drawn ∧ (∀ e ∈ s.trace, e ∈ s'.trace) ∧
      (b = false → ∀ m ∈ ms, (m, scoreOf p m) ∈ s'.trace) := by
  induction ms generalizing s with
  | nil => cases he; exact ⟨h, rfl, fun _ h => h, by simp⟩
  | cons a t ih =>
    rw [modelsLoop] at he
    split at he
    · cases he
    · rename_i s1 hs1
      obtain ⟨h1, h2, h3, h4⟩ := scoreModel_good g fuel s s1 a h hs1
      split at he
      · cases he; exact ⟨h1, h2, h3, by simp⟩
      · obtain ⟨g1, g2, g3, g4⟩ := ih s1 h1 he
        refine ⟨g1, g2.trans h2, fun e he => g3 e (h3 e he), ?_⟩
        intro hb m hm
        rcases List.mem_cons.1 hm with rfl | hm
        · exact g3 _ h4
        · exact g4 hb m hm

theorem mainLoop_good {p : Problem M D F} (g : Rng ρ) (fuel n i : Nat) (s s' : State ρ M F)
    (h : Good p s) (he : mainLoop p g fuel n i s = some s') :
    Good p s' ∧ s.drawn ≤ s'.drawn ∧ s'.drawn ≤ s.drawn + n ∧
      (p.useReduction = false → s'.drawn = s.drawn + n) := by
  induction n generalizing i s with
  | zero => cases he; exact ⟨h, by omega, by omega, fun _ => rfl⟩
  | succ n ih =>
    rw [mainLoop] at he
    split at he
    · cases he
    · rename_i ds r' _
      split at he
      · cases he
      · rename_i s1 hs1
        cases he
        obtain ⟨h1, h2, _⟩ := modelsLoop_good g fuel i _ _ _ _ (h.rng r' (s.drawn + 1)) hs1
        simp only at h2
        refine ⟨h1, by omega, by omega, ?_⟩
        intro hr
        exfalso
        revert hs1
        generalize p.estimate ds = ms
        generalize ({ s with rng := r', drawn := s.drawn + 1 } : State ρ M F) = s0
        intro hs1
        induction ms generalizing s0 with
        | nil => cases hs1
        | cons a t ih2 =>
          rw [modelsLoop] at hs1
          split at hs1
          · cases hs1
          · have hno : ∀ b, shouldStop p b i = false := by intro b; simp [shouldStop, hr]
            rw [hno] at hs1
            exact ih2 _ hs1
      · rename_i s1 hs1
        obtain ⟨h1, h2, _⟩ := modelsLoop_good g fuel i _ _ _ _ (h.rng r' (s.drawn + 1)) hs1
        simp only at h2
        obtain ⟨g1, g2, g3, g4⟩ := ih (i + 1) s1 h1 he
        refine ⟨g1, by omega, by omega, ?_⟩
        intro hr
        have := g4 hr
        omega

/-- **C37.** For all data, thresholds, estimators, scorers and random streams: when the run
returns, it has drawn at most the configured number of minimal samples (exactly that many without
early stopping); the returned score is at least that of every model scored during the run; and,
unless every score was negative, it is the score, with the inliers, of the returned refined model,
which was scored during the run (the returned minimal model too). -/
theorem C37_best (p : Problem M D F) (g : Rng ρ) (fuel : Nat) (r : ρ) (s : State ρ M F)
    (h : estimate p g fuel r = some s) :
    s.drawn ≤ p.iterations ∧ (p.useReduction = false → s.drawn = p.iterations) ∧
    (∀ e ∈ s.trace, e.2 = p.scorer (p.samples.map (p.err e.1)) ∧ e.2.1 ≤ s.best.score) ∧
    ((∀ e ∈ s.trace, e.2.1 < 0) ∧ s.best.loModel = none ∧ s.best.inliers = [] ∨
      ∃ m m0, s.best.loModel = some m ∧ (m, s.best.score, s.best.inliers) ∈ s.trace ∧
        (s.best.score, s.best.inliers) = p.scorer (p.samples.map (p.err m)) ∧
        s.best.model = some m0 ∧ ∃ q, (m0, q) ∈ s.trace) := by
  have h0 : Good p (⟨⟨0, [], none, none⟩, r, [], 0⟩ : State ρ M F) :=
    ⟨by simp, by simp, Or.inl ⟨rfl, by simp⟩, le_refl _⟩
  obtain ⟨h1, h2, h3, h4⟩ := mainLoop_good g fuel p.iterations 0 _ s h0 h
  simp only [Nat.zero_add] at h3 h4
  refine ⟨h3, h4, fun e he => ⟨h1.scored e he, h1.upper e he⟩, ?_⟩
  rcases h1.attained with ⟨a, b⟩ | ⟨m, m0, a, b, c, d⟩
  · left; rw [a]; exact ⟨b, rfl, rfl⟩
  · exact Or.inr ⟨m, m0, a, b, h1.scored _ b, c, d⟩

/-- The models of a minimal sample are all scored, unless the run stops early among them. -/
theorem C37_all_scored (p : Problem M D F) (g : Rng ρ) (fuel i : Nat) (ms : List M)
    (s s' : State ρ M F) (h : Good p s) (he : modelsLoop p g fuel i ms s = some (s', false)) :
    ∀ m ∈ ms, (m, p.scorer (p.samples.map (p.err m))) ∈ s'.trace :=
  (modelsLoop_good g fuel i ms s s' false h he).2.2.2 rfl

/-! ### The scorers -/

theorem mem_indicesFrom (q : F → Bool) (l : List F) (i k : Nat) :
    k ∈ indicesFrom q i l ↔ ∃ e, i ≤ k ∧ l[k - i]? = some e ∧ q e = true := by
  induction l generalizing i with
  | nil => simp [indicesFrom]
  | cons a t ih =>
    have key : (∃ e, i + 1 ≤ k ∧ t[k - (i + 1)]? = some e ∧ q e = true) ↔
        (k ≠ i ∧ ∃ e, i ≤ k ∧ (a :: t)[k - i]? = some e ∧ q e = true) := by
      constructor
      · rintro ⟨e, h1, h2, h3⟩
        refine ⟨by omega, e, by omega, ?_, h3⟩
        rw [show k - i = (k - (i + 1)) + 1 by omega, List.getElem?_cons_succ]
        exact h2
      · rintro ⟨h0, e, h1, h2, h3⟩
        refine ⟨e, by omega, ?_, h3⟩
        rw [show k - i = (k - (i + 1)) + 1 by omega, List.getElem?_cons_succ] at h2
        exact h2
    rw [indicesFrom]
    split
    · rename_i hq
      rw [List.mem_cons, ih, key]
      constructor
      · rintro (rfl | ⟨_, h⟩)
        · exact ⟨a, by omega, by simp, hq⟩
        · exact h
      · rintro h
        by_cases hk : k = i
        · exact Or.inl hk
        · exact Or.inr ⟨hk, h⟩
    · rename_i hq
      rw [ih, key]
      constructor
      · rintro ⟨_, h⟩; exact h
      · rintro ⟨e, h1, h2, h3⟩
        refine ⟨?_, e, h1, h2, h3⟩
        rintro rfl
        simp at h2
        subst h2
        exact hq h3

theorem indicesFrom_sorted (q : F → Bool) (l : List F) (i : Nat) :
    (indicesFrom q i l).Pairwise (· < ·) := by
  induction l generalizing i with
  | nil => exact List.Pairwise.nil
  | cons a t ih =>
    rw [indicesFrom]
    split
    · rw [List.pairwise_cons]
      refine ⟨?_, ih _⟩
      intro k hk
      obtain ⟨e, h1, _⟩ := (mem_indicesFrom q t (i + 1) k).1 hk
      omega
    · exact ih _

theorem indices_map (q : F → Bool) (f : D → F) (samples : List D) (k : Nat) :
    k ∈ indicesFrom q 0 (samples.map f) ↔ ∃ d, samples[k]? = some d ∧ q (f d) = true := by
  rw [mem_indicesFrom]
  simp only [Nat.zero_le, Nat.sub_zero, List.getElem?_map, true_and, Option.map_eq_some_iff]
  constructor
  · rintro ⟨e, ⟨d, h1, rfl⟩, h2⟩; exact ⟨d, h1, h2⟩
  · rintro ⟨d, h1, h2⟩; exact ⟨_, ⟨d, h1, rfl⟩, h2⟩

/-- **C37, RANSAC.** The returned inliers are exactly, in increasing order and once each, the
samples whose error for the returned refined model is strictly below the threshold, and the score
is their number; no scored model has more. -/
theorem C37_ransac [IsStrictOrderedRing F] (p : Problem M D F) (thr : F)
    (hs : p.scorer = ransacScore thr) (g : Rng ρ)
    (fuel : Nat) (r : ρ) (s : State ρ M F) (h : estimate p g fuel r = some s) (m : M)
    (hm : s.best.loModel = some m) :
    (∀ k, k ∈ s.best.inliers ↔ ∃ d, p.samples[k]? = some d ∧ p.err m d < thr) ∧
    s.best.inliers.Pairwise (· < ·) ∧ s.best.score = (s.best.inliers.length : F) ∧
    ∀ e ∈ s.trace, e.2.2.length ≤ s.best.inliers.length := by
  obtain ⟨_, _, hall, hc⟩ := C37_best p g fuel r s h
  rcases hc with ⟨_, h1, _⟩ | ⟨m', m0, h1, _, h2, _⟩
  · rw [h1] at hm; cases hm
  · rw [hm] at h1; cases h1
    rw [hs] at h2
    have e1 : s.best.score = _ := congrArg Prod.fst h2
    have e2 : s.best.inliers = _ := congrArg Prod.snd h2
    simp only [ransacScore] at e1 e2
    refine ⟨?_, ?_, ?_, ?_⟩
    · intro k; rw [e2, indices_map]; simp
    · rw [e2]; exact indicesFrom_sorted _ _ _
    · rw [e1, e2]
    · intro e he
      obtain ⟨h3, h4⟩ := hall e he
      rw [hs] at h3
      have e3 : e.2.1 = _ := congrArg Prod.fst h3
      have e4 : e.2.2 = _ := congrArg Prod.snd h3
      simp only [ransacScore] at e3 e4
      rw [e3, e1, Nat.cast_le] at h4
      rw [e4, e2]; exact h4

/-- The truncated squared error of a model over the data. -/
def truncatedCost (err : M → D → F) (samples : List D) (thr : F) (m : M) : F :=
  (samples.map (fun d => min (err m d ^ 2) (thr ^ 2))).sum

theorem msac_score_cost [IsStrictOrderedRing F] (p : Problem M D F) (eps thr : F) (ht : 0 ≤ thr)
    (herr : ∀ m d, 0 ≤ p.err m d) (m : M) :
    (msacScore eps thr (p.samples.map (p.err m))).1 =
      1 / (truncatedCost p.err p.samples thr m + eps) := by
  unfold msacScore truncatedCost
  simp only
  congr 2
  rw [List.map_map]
  congr 1
  apply List.map_congr_left
  intro d _
  simp only [Function.comp]
  split
  · rename_i h
    rw [min_eq_left (pow_le_pow_left₀ (herr m d) h 2), sq]
  · rename_i h
    rw [not_le] at h
    rw [min_eq_right (pow_le_pow_left₀ ht h.le 2), sq]

theorem truncatedCost_nonneg [IsStrictOrderedRing F] (err : M → D → F) (samples : List D) (thr : F)
    (m : M) : 0 ≤ truncatedCost err samples thr m := by
  apply List.sum_nonneg
  intro x hx
  obtain ⟨d, _, rfl⟩ := List.mem_map.1 hx
  exact le_min (sq_nonneg _) (sq_nonneg _)

/-- **C37, MSAC.** The inliers are the samples whose error is at most the threshold, and no scored
model has a smaller truncated squared error. -/
theorem C37_msac [IsStrictOrderedRing F] (p : Problem M D F) (eps thr : F) (heps : 0 < eps)
    (ht : 0 ≤ thr) (herr : ∀ m d, 0 ≤ p.err m d)
    (hs : p.scorer = msacScore eps thr) (g : Rng ρ)
    (fuel : Nat) (r : ρ) (s : State ρ M F) (h : estimate p g fuel r = some s) (m : M)
    (hm : s.best.loModel = some m) :
    (∀ k, k ∈ s.best.inliers ↔ ∃ d, p.samples[k]? = some d ∧ p.err m d ≤ thr) ∧
    s.best.inliers.Pairwise (· < ·) ∧
    ∀ e ∈ s.trace, truncatedCost p.err p.samples thr m ≤ truncatedCost p.err p.samples thr e.1 := by
  obtain ⟨_, _, hall, hc⟩ := C37_best p g fuel r s h
  rcases hc with ⟨_, h1, _⟩ | ⟨m', m0, h1, _, h2, _⟩
  · rw [h1] at hm; cases hm
  · rw [hm] at h1; cases h1
    rw [hs] at h2
    have e1 : s.best.score = _ := congrArg Prod.fst h2
    have e2 : s.best.inliers = _ := congrArg Prod.snd h2
    rw [msac_score_cost p eps thr ht herr] at e1
    simp only [msacScore] at e2
    refine ⟨?_, by rw [e2]; exact indicesFrom_sorted _ _ _, ?_⟩
    · intro k; rw [e2, indices_map]; simp
    · intro e he
      obtain ⟨h3, h4⟩ := hall e he
      rw [hs] at h3
      have e3 : e.2.1 = _ := congrArg Prod.fst h3
      rw [msac_score_cost p eps thr ht herr] at e3
      rw [e3, e1] at h4
      have a1 := truncatedCost_nonneg p.err p.samples thr m
      have a2 := truncatedCost_nonneg p.err p.samples thr e.1
      rw [one_div_le_one_div (by linarith) (by linarith)] at h4
      linarith

/-- The (upper) median of a list: an element with at most half of the list below it, and more than
half of the list not above it. -/
def IsMedian (es : List F) (m : F) : Prop :=
  m ∈ es ∧ 2 * es.countP (fun e => decide (e < m)) ≤ es.length ∧
    es.length < 2 * es.countP (fun e => decide (e ≤ m))

theorem IsMedian.unique {es : List F} {a b : F} (ha : IsMedian es a) (hb : IsMedian es b) :
    a = b := by
  rcases lt_trichotomy a b with h | h | h
  · exfalso
    have : es.countP (fun e => decide (e ≤ a)) ≤ es.countP (fun e => decide (e < b)) := by
      apply List.countP_mono_left
      intro x _ hx
      simp only [decide_eq_true_eq] at hx ⊢
      exact lt_of_le_of_lt hx h
    have := ha.2.2; have := hb.2.1
    omega
  · exact h
  · exfalso
    have : es.countP (fun e => decide (e ≤ b)) ≤ es.countP (fun e => decide (e < a)) := by
      apply List.countP_mono_left
      intro x _ hx
      simp only [decide_eq_true_eq] at hx ⊢
      exact lt_of_le_of_lt hx h
    have := hb.2.2; have := ha.2.1
    omega

theorem sorted_rank (l : List F) (h : l.Pairwise (· ≤ ·)) (k : Nat) (hk : k < l.length) :
    l.countP (fun e => decide (e < l[k])) ≤ k ∧ k + 1 ≤ l.countP (fun e => decide (e ≤ l[k])) := by
  induction l generalizing k with
  | nil => simp at hk
  | cons a t ih =>
    rw [List.pairwise_cons] at h
    cases k with
    | zero =>
      simp only [List.getElem_cons_zero]
      constructor
      · rw [Nat.le_zero, List.countP_eq_zero]
        intro x hx
        simp only [decide_eq_true_eq, not_lt]
        rcases List.mem_cons.1 hx with rfl | hx
        · exact le_refl _
        · exact h.1 x hx
      · rw [List.countP_cons]; simp
    | succ k =>
      simp only [List.getElem_cons_succ]
      have hk' : k < t.length := by simpa using hk
      obtain ⟨h1, h2⟩ := ih h.2 k hk'
      rw [List.countP_cons, List.countP_cons]
      have : a ≤ t[k] := h.1 _ (List.getElem_mem _)
      constructor
      · split <;> omega
      · simp only [this, decide_true, if_true]; omega

theorem median_isMedian (es : List F) (h : es ≠ []) : IsMedian es (median es) := by
  have hlen : (es.insertionSort (· ≤ ·)).length = es.length := List.length_insertionSort _ _
  have hpos : 0 < es.length := List.length_pos_iff.2 h
  have hk : es.length / 2 < (es.insertionSort (· ≤ ·)).length := by omega
  have hm : median es = (es.insertionSort (· ≤ ·))[es.length / 2] := by
    unfold median; rw [List.getElem?_eq_getElem hk]; rfl
  have hp := List.perm_insertionSort (· ≤ ·) es
  obtain ⟨h1, h2⟩ := sorted_rank _ (List.pairwise_insertionSort (· ≤ ·) es) _ hk
  rw [← hm, hp.countP_eq] at h1 h2
  refine ⟨?_, by omega, by omega⟩
  rw [hm, ← hp.mem_iff]
  exact List.getElem_mem _

/-- **C37, LMedS.** With the median of the errors of the returned refined model, the inliers are the
samples whose error is at most the multiplier times `1.4826` times this median, and no scored model
has a smaller median error. -/
theorem C37_lmeds [IsStrictOrderedRing F] (p : Problem M D F) (eps c mult : F) (heps : 0 < eps)
    (herr : ∀ m d, 0 ≤ p.err m d) (hne : p.samples ≠ [])
    (hs : p.scorer = lmedsScore eps c mult)
    (g : Rng ρ) (fuel : Nat) (r : ρ) (s : State ρ M F) (h : estimate p g fuel r = some s) (m : M)
    (hm : s.best.loModel = some m) :
    ∃ med, IsMedian (p.samples.map (p.err m)) med ∧
    (∀ k, k ∈ s.best.inliers ↔ ∃ d, p.samples[k]? = some d ∧ p.err m d ≤ mult * (c * med)) ∧
    s.best.inliers.Pairwise (· < ·) ∧
    ∀ e ∈ s.trace, ∀ med', IsMedian (p.samples.map (p.err e.1)) med' → med ≤ med' := by
  have hmed : ∀ m, IsMedian (p.samples.map (p.err m)) (median (p.samples.map (p.err m))) :=
    fun m => median_isMedian _ (by simpa using hne)
  have hnn : ∀ m, 0 ≤ median (p.samples.map (p.err m)) := by
    intro m
    obtain ⟨d, _, hd⟩ := List.mem_map.1 (hmed m).1
    rw [← hd]; exact herr m d
  obtain ⟨_, _, hall, hc⟩ := C37_best p g fuel r s h
  rcases hc with ⟨_, h1, _⟩ | ⟨m', m0, h1, _, h2, _⟩
  · rw [h1] at hm; cases hm
  · rw [hm] at h1; cases h1
    rw [hs] at h2
    have e1 : s.best.score = _ := congrArg Prod.fst h2
    have e2 : s.best.inliers = _ := congrArg Prod.snd h2
    simp only [lmedsScore] at e1 e2
    refine ⟨_, hmed m, ?_, by rw [e2]; exact indicesFrom_sorted _ _ _, ?_⟩
    · intro k; rw [e2, indices_map]; simp
    · intro e he med' hmed'
      obtain ⟨h3, h4⟩ := hall e he
      rw [hs] at h3
      have e3 : e.2.1 = _ := congrArg Prod.fst h3
      simp only [lmedsScore] at e3
      rw [e3, e1, one_div_le_one_div (by linarith [hnn e.1]) (by linarith [hnn m])] at h4
      rw [hmed'.unique (hmed e.1)]
      linarith

/-- **C37, local optimisation.** Each refinement is estimated from a sample of the current inliers:
half of them and twelve at most, but never fewer than a minimal sample. -/
theorem C37_refinement_sample (p : Problem M D F) (g : Rng ρ) (fuel k : Nat) (s s' : State ρ M F)
    (h : loLoop p g fuel (k + 1) s = some s') :
    ∃ (idx : List Nat) (ds : List D) (r' : ρ),
      idx.Nodup ∧ (∀ i ∈ idx, i < (s.best.inliers.filterMap (fun i => p.samples[i]?)).length) ∧
      ds = idx.filterMap (fun i => (s.best.inliers.filterMap (fun i => p.samples[i]?))[i]?) ∧
      p.minimal ≤ ds.length ∧ (ds.length ≤ 12 ∨ ds.length = p.minimal) ∧
      (2 * ds.length ≤ s.best.inliers.length ∨ ds.length = p.minimal) ∧
      (24 ≤ s.best.inliers.length → p.minimal ≤ 12 → ds.length = 12) ∧
      loLoop p g fuel k ((p.estimateNonMinimal ds).foldl (loScore p) { s with rng := r' }) =
        some s' := by
  simp only [loLoop] at h
  split at h
  · cases h
  · rename_i ds r' hg
    obtain ⟨idx, h1, h2, h3, h4, h5⟩ := C38_data g fuel _ _ _ _ _ hg
    refine ⟨idx, ds, r', h2, h3, h4, ?_, ?_, ?_, ?_, h⟩ <;> rw [h5] <;> unfold loSize <;> omega

/-! ### C38: no endless sampling with RANSAC scoring -/

theorem getSamples_mono (g : Rng ρ) (fuel fuel' : Nat) (samples : List D) (size : Nat) (r : ρ)
    (h : (getSamples g fuel samples size r).isSome) (hle : fuel ≤ fuel') :
    getSamples g fuel' samples size r = getSamples g fuel samples size r := by
  unfold getSamples at h ⊢
  split
  · rfl
  · rename_i h0
    rw [if_neg h0] at h
    cases hg : genSample g (samples.length - 1) fuel size [] r with
    | none => rw [hg] at h; cases h
    | some q => rw [genSample_mono g _ fuel fuel' _ _ _ (by rw [hg]; rfl) hle, hg]

theorem loLoop_mono (p : Problem M D F) (g : Rng ρ) (fuel fuel' k : Nat) (s : State ρ M F)
    (h : (loLoop p g fuel k s).isSome) (hle : fuel ≤ fuel') :
    loLoop p g fuel' k s = loLoop p g fuel k s := by
  induction k generalizing s with
  | zero => rfl
  | succ k ih =>
    simp only [loLoop] at h ⊢
    cases hg : getSamples g fuel (s.best.inliers.filterMap (fun i => p.samples[i]?))
        (loSize p s.best.inliers.length) s.rng with
    | none => rw [hg] at h; cases h
    | some q =>
      rw [getSamples_mono g fuel fuel' _ _ _ (by rw [hg]; rfl) hle, hg]
      rw [hg] at h
      exact ih _ h

theorem scoreModel_mono (p : Problem M D F) (g : Rng ρ) (fuel fuel' : Nat) (s : State ρ M F) (m : M)
    (h : (scoreModel p g fuel s m).isSome) (hle : fuel ≤ fuel') :
    scoreModel p g fuel' s m = scoreModel p g fuel s m := by
  unfold scoreModel at h ⊢
  simp only at h ⊢
  split
  · rename_i hc
    rw [if_pos hc] at h
    exact loLoop_mono p g fuel fuel' _ _ h hle
  · rfl

theorem modelsLoop_mono (p : Problem M D F) (g : Rng ρ) (fuel fuel' i : Nat) (ms : List M)
    (s : State ρ M F) (h : (modelsLoop p g fuel i ms s).isSome) (hle : fuel ≤ fuel') :
    modelsLoop p g fuel' i ms s = modelsLoop p g fuel i ms s := by
  induction ms generalizing s with
  | nil => rfl
  | cons a t ih =>
    simp only [modelsLoop] at h ⊢
    cases hg : scoreModel p g fuel s a with
    | none => rw [hg] at h; cases h
    | some q =>
      rw [scoreModel_mono p g fuel fuel' _ _ (by rw [hg]; rfl) hle, hg]
      rw [hg] at h
      simp only at h ⊢
      split
      · rfl
      · rename_i hc
        rw [if_neg hc] at h
        exact ih _ h

/-- Inlier lists of the RANSAC scorer: as many as the score, all valid indices. -/
def Solid (p : Problem M D F) (b : ScoreInfo M F) : Prop :=
  b.score = (b.inliers.length : F) ∧ ∀ i ∈ b.inliers, i < p.samples.length

theorem solid_scoreOf {p : Problem M D F} {thr : F} (hs : p.scorer = ransacScore thr) (m : M)
    (a b : Option M) : Solid p ⟨(scoreOf p m).1, (scoreOf p m).2, a, b⟩ := by
  unfold Solid scoreOf
  rw [hs]
  refine ⟨rfl, ?_⟩
  intro i hi
  simp only [ransacScore] at hi
  rw [indices_map] at hi
  obtain ⟨d, h1, _⟩ := hi
  exact (List.getElem?_eq_some_iff.1 h1).1

theorem Solid.better {p : Problem M D F} {a b : ScoreInfo M F} (ha : Solid p a) (hb : Solid p b) :
    Solid p (better a b) := by
  unfold Robust.better; split <;> assumption

theorem better_count [IsStrictOrderedRing F] {p : Problem M D F} {a b : ScoreInfo M F}
    (ha : Solid p a) (hb : Solid p b) :
    b.inliers.length ≤ (better a b).inliers.length := by
  unfold better
  split
  · exact le_refl _
  · rename_i h
    rw [not_lt, ha.1, hb.1, Nat.cast_le] at h
    exact h

theorem loFold_solid [IsStrictOrderedRing F] {p : Problem M D F} {thr : F}
    (hs : p.scorer = ransacScore thr) (ms : List M)
    (s : State ρ M F) (h : Solid p s.best) :
    Solid p (ms.foldl (loScore p) s).best ∧
      s.best.inliers.length ≤ (ms.foldl (loScore p) s).best.inliers.length := by
  induction ms generalizing s with
  | nil => exact ⟨h, le_refl _⟩
  | cons a t ih =>
    rw [List.foldl_cons]
    obtain ⟨h1, h2⟩ := ih (loScore p s a) ((solid_scoreOf hs a _ _).better h)
    refine ⟨h1, le_trans ?_ h2⟩
    exact better_count (solid_scoreOf hs a _ _) h

theorem length_filterMap_get (samples : List D) (l : List Nat) (h : ∀ i ∈ l, i < samples.length) :
    (l.filterMap (fun i => samples[i]?)).length = l.length := by
  induction l with
  | nil => rfl
  | cons a t ih =>
    have ha := h a (by simp)
    rw [List.filterMap_cons, List.getElem?_eq_getElem ha]
    simp only [List.length_cons]
    rw [ih (fun i hi => h i (by simp [hi]))]

theorem loLoop_terminates [IsStrictOrderedRing F] {p : Problem M D F} {thr : F}
    (hs : p.scorer = ransacScore thr) (g : Rng ρ)
    (hf : g.Fair) (k : Nat) (s : State ρ M F) (h : Solid p s.best)
    (hmin : p.minimal ≤ s.best.inliers.length) :
    ∃ fuel s', loLoop p g fuel k s = some s' ∧ Solid p s'.best := by
  induction k generalizing s with
  | zero => exact ⟨0, s, rfl, h⟩
  | succ k ih =>
    have hsz : loSize p s.best.inliers.length ≤
        (s.best.inliers.filterMap (fun i => p.samples[i]?)).length := by
      rw [length_filterMap_get _ _ h.2]
      unfold loSize
      have := Nat.div_le_self s.best.inliers.length 2
      omega
    obtain ⟨f1, h1⟩ := (C38_termination g hf _ _ s.rng).2 hsz
    obtain ⟨⟨ds, r'⟩, hq⟩ := Option.isSome_iff_exists.1 h1
    obtain ⟨g1, g2⟩ := loFold_solid hs (p.estimateNonMinimal ds) { s with rng := r' } h
    obtain ⟨f2, s', h2, h3⟩ := ih _ g1 (le_trans hmin g2)
    refine ⟨max f1 f2, s', ?_, h3⟩
    simp only [loLoop]
    rw [getSamples_mono g f1 _ _ _ _ h1 (by omega), hq]
    simp only
    rw [loLoop_mono p g f2 _ k _ (by rw [h2]; rfl) (by omega)]
    exact h2

theorem scoreModel_terminates [IsStrictOrderedRing F] {p : Problem M D F} {thr : F}
    (hs : p.scorer = ransacScore thr) (g : Rng ρ)
    (hf : g.Fair) (s : State ρ M F) (m : M) (h : Solid p s.best) :
    ∃ fuel s', scoreModel p g fuel s m = some s' ∧ Solid p s'.best := by
  have hb := (solid_scoreOf hs m (some m) (some m)).better h
  unfold scoreModel
  simp only
  split
  · rename_i hc
    apply loLoop_terminates hs g hf _ _ hb
    have h1 := hc.1
    have h2 := hc.2.1
    have e1 := (solid_scoreOf hs m (some m) (some m)).1
    have e2 := hb.1
    have h3 : ((scoreOf p m).2.length : F) = _ := e1.symm.trans (h1.trans e2)
    rw [Nat.cast_inj] at h3
    show p.minimal ≤ (better _ s.best).inliers.length
    rw [← h3]; exact h2
  · exact ⟨0, _, rfl, hb⟩

theorem modelsLoop_terminates [IsStrictOrderedRing F] {p : Problem M D F} {thr : F}
    (hs : p.scorer = ransacScore thr) (g : Rng ρ)
    (hf : g.Fair) (i : Nat) (ms : List M) (s : State ρ M F) (h : Solid p s.best) :
    ∃ fuel q, modelsLoop p g fuel i ms s = some q ∧ Solid p q.1.best := by
  induction ms generalizing s with
  | nil => exact ⟨0, _, rfl, h⟩
  | cons a t ih =>
    obtain ⟨f1, s1, h1, h2⟩ := scoreModel_terminates hs g hf s a h
    obtain ⟨f2, q, h3, h4⟩ := ih s1 h2
    by_cases hc : shouldStop p s1.best i = true
    · refine ⟨f1, (s1, true), ?_, h2⟩
      simp only [modelsLoop, h1, if_pos hc]
    · refine ⟨max f1 f2, q, ?_, h4⟩
      simp only [modelsLoop]
      rw [scoreModel_mono p g f1 _ _ _ (by rw [h1]; rfl) (by omega), h1]
      simp only [if_neg hc]
      rw [modelsLoop_mono p g f2 _ _ _ _ (by rw [h3]; rfl) (by omega)]
      exact h3

theorem mainLoop_mono (p : Problem M D F) (g : Rng ρ) (fuel fuel' n i : Nat)
    (s : State ρ M F) (h : (mainLoop p g fuel n i s).isSome) (hle : fuel ≤ fuel') :
    mainLoop p g fuel' n i s = mainLoop p g fuel n i s := by
  induction n generalizing i s with
  | zero => rfl
  | succ n ih =>
    simp only [mainLoop] at h ⊢
    cases hg : getSamples g fuel p.samples p.minimal s.rng with
    | none => rw [hg] at h; cases h
    | some q =>
      obtain ⟨ds, r'⟩ := q
      rw [getSamples_mono g fuel fuel' _ _ _ (by rw [hg]; rfl) hle, hg]
      rw [hg] at h
      simp only at h ⊢
      cases hm : modelsLoop p g fuel i (p.estimate ds) { s with rng := r', drawn := s.drawn + 1 } with
      | none => rw [hm] at h; cases h
      | some q2 =>
        rw [modelsLoop_mono p g fuel fuel' _ _ _ (by rw [hm]; rfl) hle, hm]
        rw [hm] at h
        obtain ⟨s2, b⟩ := q2
        cases b with
        | true => rfl
        | false => exact ih _ _ h

/-- **C38, no endless sampling.** With RANSAC scoring, a fair generator and at least as many samples
as a minimal sample needs, the estimation returns: local optimisation never asks for more samples
than there are inliers. -/
theorem C38_ransac_returns [IsStrictOrderedRing F] (p : Problem M D F) (thr : F)
    (hs : p.scorer = ransacScore thr)
    (hmin : p.minimal ≤ p.samples.length) (g : Rng ρ) (hf : g.Fair) (r : ρ) :
    ∃ fuel s, estimate p g fuel r = some s := by
  unfold estimate
  have h0 : Solid p (⟨0, [], none, none⟩ : ScoreInfo M F) := ⟨by simp, by simp⟩
  have key : ∀ n i (s : State ρ M F), Solid p s.best →
      ∃ fuel s', mainLoop p g fuel n i s = some s' := by
    intro n
    induction n with
    | zero => intro i s _; exact ⟨0, s, rfl⟩
    | succ n ih =>
      intro i s h
      obtain ⟨f1, h1⟩ := (C38_termination g hf p.samples p.minimal s.rng).2 hmin
      obtain ⟨⟨ds, r'⟩, hq⟩ := Option.isSome_iff_exists.1 h1
      obtain ⟨f2, ⟨s2, b⟩, h2, h3⟩ := modelsLoop_terminates hs g hf i (p.estimate ds)
        { s with rng := r', drawn := s.drawn + 1 } h
      cases b with
      | true =>
        refine ⟨max f1 f2, s2, ?_⟩
        simp only [mainLoop]
        rw [getSamples_mono g f1 _ _ _ _ h1 (by omega), hq]
        simp only
        rw [modelsLoop_mono p g f2 _ _ _ _ (by rw [h2]; rfl) (by omega), h2]
      | false =>
        obtain ⟨f3, s', h4⟩ := ih (i + 1) s2 h3
        refine ⟨max f1 (max f2 f3), s', ?_⟩
        simp only [mainLoop]
        rw [getSamples_mono g f1 _ _ _ _ h1 (by omega), hq]
        simp only
        rw [modelsLoop_mono p g f2 _ _ _ _ (by rw [h2]; rfl) (by omega), h2]
        simp only
        rw [mainLoop_mono p g f3 _ _ _ _ (by rw [h4]; rfl) (by omega)]
        exact h4
  exact key _ _ _ h0

/-- Errors of two models on five samples: model 0 has two mediocre inliers, model 1 a single
perfect one. -/
def exErr (m d : Nat) : ℚ := if m = 0 then (if d < 2 then 9 / 10 else 2) else (if d = 0 then 0 else 2)

def exProblem (scorer : Scorer ℚ) : Problem Nat Nat ℚ where
  samples := [0, 1, 2, 3, 4]
  err := exErr
  scorer := scorer
  minimal := 2
  estimate := fun _ => [0]
  estimateNonMinimal := fun _ => [1]
  stop := fun _ _ _ => false
  iterations := 3
  useLO := true
  useReduction := true
  loIterations := 10

theorem loLoop_succ (p : Problem M D F) (g : Rng ρ) (fuel k : Nat) (s : State ρ M F) :
    loLoop p g fuel (k + 1) s =
      match getSamples g fuel (s.best.inliers.filterMap (fun i => p.samples[i]?))
        (loSize p s.best.inliers.length) s.rng with
      | none => none
      | some (ds, r') =>
        loLoop p g fuel k ((p.estimateNonMinimal ds).foldl (loScore p) { s with rng := r' }) := rfl

/-- With MSAC scoring the same is false: a model found by local optimisation can score better with
fewer inliers than a minimal sample, and the next local optimisation draws for ever (whatever the
number of draws allowed). -/
theorem C38_msac_loops (fuel r : Nat) :
    estimate (exProblem (msacScore (1 / 100000000) 1)) counterRng fuel r = none := by
  have hs0 : (exProblem (msacScore (1 / 100000000) 1)).samples = [0, 1, 2, 3, 4] := rfl
  have key : ∀ (s : State Nat Nat ℚ), s.best.inliers = [0] → ∀ k,
      loLoop (exProblem (msacScore (1 / 100000000) 1)) counterRng fuel (k + 1) s = none := by
    intro s hs k
    have hnone : getSamples counterRng fuel
        (s.best.inliers.filterMap (fun i => (exProblem (msacScore (1 / 100000000) 1)).samples[i]?))
        (loSize (exProblem (msacScore (1 / 100000000) 1)) s.best.inliers.length) s.rng = none := by
      cases hx : getSamples counterRng fuel
        (s.best.inliers.filterMap (fun i => (exProblem (msacScore (1 / 100000000) 1)).samples[i]?))
        (loSize (exProblem (msacScore (1 / 100000000) 1)) s.best.inliers.length) s.rng with
      | none => rfl
      | some q =>
        have := (C38_termination counterRng counter_fair _ _ _).1 ⟨fuel, by rw [hx]; rfl⟩
        rw [hs] at this
        exact absurd this (by decide)
    simp only [loLoop, hnone]
  have hA : scoreOf (exProblem (msacScore (1 / 100000000) 1)) 0 =
      (1 / (9 / 10 * (9 / 10) + 9 / 10 * (9 / 10) + 3 + 1 / 100000000), [0, 1]) := by
    decide +kernel
  have hB : scoreOf (exProblem (msacScore (1 / 100000000) 1)) 1 =
      (1 / (4 + 1 / 100000000), [0]) := by
    decide +kernel
  have hmodel : ∀ (s : State Nat Nat ℚ), s.best = ⟨0, [], none, none⟩ →
      scoreModel (exProblem (msacScore (1 / 100000000) 1)) counterRng fuel s 0 = none := by
    intro s hs
    unfold scoreModel
    simp only [hs, hA]
    have hb : better (⟨1 / (9 / 10 * (9 / 10) + 9 / 10 * (9 / 10) + 3 + 1 / 100000000), [0, 1],
        some 0, some 0⟩ : ScoreInfo Nat ℚ) ⟨0, [], none, none⟩ =
        ⟨1 / (9 / 10 * (9 / 10) + 9 / 10 * (9 / 10) + 3 + 1 / 100000000), [0, 1], some 0, some 0⟩ := by
      unfold better
      rw [if_neg (by norm_num)]
    rw [hb]
    rw [if_pos ⟨rfl, by decide, rfl⟩]
    show loLoop _ _ _ (9 + 1) _ = none
    rw [loLoop_succ]
    split
    · rfl
    · rename_i ds r' _
      apply key
      simp only [exProblem, List.foldl_cons, List.foldl_nil]
      unfold loScore
      have : scoreOf (exProblem (msacScore (1 / 100000000) 1)) 1 = _ := hB
      simp only [exProblem] at this
      simp only [this]
      unfold better
      rw [if_neg (by norm_num)]
  unfold estimate
  show mainLoop _ _ _ (2 + 1) _ _ = none
  simp only [mainLoop]
  split
  · rfl
  · rename_i ds r' _
    have : modelsLoop (exProblem (msacScore (1 / 100000000) 1)) counterRng fuel 0
        ((exProblem (msacScore (1 / 100000000) 1)).estimate ds)
        ⟨⟨0, [], none, none⟩, r', [], 0 + 1⟩ = none := by
      show modelsLoop _ _ _ _ [0] _ = none
      simp only [modelsLoop]
      rw [hmodel _ rfl]
    rw [this]

example : (estimate (exProblem (ransacScore 1)) counterRng 10 0).map
    (fun s => (s.best.inliers, s.best.model, s.best.loModel, s.drawn, s.trace.length)) =
    some ([0, 1], some 0, some 0, 3, 33) := by decide +kernel

end Verif.Robust
