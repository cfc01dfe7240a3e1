import Verif.Model.DetectStage
import Mathlib.Tactic.Common

/-!
# C75: interrupted runs of `detect_features`
-/
set_option linter.unusedSectionVars false
set_option linter.unusedSimpArgs false
namespace Verif.DetectStage

variable {I V W : Type}

/-- The states `detect` can leave behind. -/
theorem detect_cases (bow : V → W) (nw : Bool) (v : V) (k : Nat) (f : Files V W) :
    detect bow nw v k f = f ∨ (skips nw f = false ∧
      (detect bow nw v k f = { f with feats := .torn } ∨
       detect bow nw v k f = { f with feats := .whole v } ∨
       (nw = true ∧ detect bow nw v k f = { f with feats := .whole v, words := .torn }) ∨
       (nw = true ∧ detect bow nw v k f = { f with feats := .whole v, words := .whole (bow v) }) ∨
       (nw = true ∧ detect bow nw v k f = { f with feats := .whole v, words := .whole (bow v), report := .torn }) ∨
       (nw = true ∧ detect bow nw v k f = { f with feats := .whole v, words := .whole (bow v), report := .whole () }) ∨
       (nw = false ∧ detect bow nw v k f = { f with feats := .whole v, report := .torn }) ∨
       (nw = false ∧ detect bow nw v k f = { f with feats := .whole v, report := .whole () }))) := by
  unfold detect
  cases hs : skips nw f with
  | true => left; simp
  | false =>
    cases nw with
    | false =>
      match k with
      | 0 => left; rfl
      | 1 => right; refine ⟨rfl, Or.inl rfl⟩
      | 2 => right; refine ⟨rfl, Or.inr (Or.inl rfl)⟩
      | 3 => right; exact ⟨rfl, by right; right; right; right; right; right; left; exact ⟨rfl, rfl⟩⟩
      | 4 => right; exact ⟨rfl, by right; right; right; right; right; right; right; exact ⟨rfl, rfl⟩⟩
      | k + 5 => right; exact ⟨rfl, by right; right; right; right; right; right; right; exact ⟨rfl, by simp [writes]⟩⟩
    | true =>
      match k with
      | 0 => left; rfl
      | 1 => right; refine ⟨rfl, Or.inl rfl⟩
      | 2 => right; refine ⟨rfl, Or.inr (Or.inl rfl)⟩
      | 3 => right; exact ⟨rfl, by right; right; left; exact ⟨rfl, rfl⟩⟩
      | 4 => right; exact ⟨rfl, by right; right; right; left; exact ⟨rfl, rfl⟩⟩
      | 5 => right; exact ⟨rfl, by right; right; right; right; left; exact ⟨rfl, rfl⟩⟩
      | 6 => right; exact ⟨rfl, by right; right; right; right; right; left; exact ⟨rfl, rfl⟩⟩
      | k + 7 => right; exact ⟨rfl, by right; right; right; right; right; left; exact ⟨rfl, by simp [writes]⟩⟩

/-- Specification: a run that does everything. -/
def Run.complete (r : Run I V) : Prop := ∀ i, 6 ≤ r.steps i

theorem detect_complete (bow : V → W) (nw : Bool) (v : V) (k : Nat) (hk : 6 ≤ k) (f : Files V W)
    (hs : skips nw f = false) : detect bow nw v k f =
      if nw then { f with feats := .whole v, words := .whole (bow v), report := .whole () }
      else { f with feats := .whole v, report := .whole () } := by
  unfold detect
  rw [hs]
  simp only [Bool.false_eq_true, if_false]
  obtain ⟨k, rfl⟩ := Nat.exists_eq_add_of_le hk
  cases nw with
  | false => rw [show 6 + k = k + 6 by omega]; simp [writes]
  | true =>
    cases k with
    | zero => simp [writes]
    | succ k => rw [show 6 + (k + 1) = k + 7 by omega]; simp [writes]

theorem runs_append (bow : V → W) (a b : List (Run I V)) (s : I → Files V W) :
    runs bow (a ++ b) s = runs bow b (runs bow a s) := by
  unfold runs; rw [List.foldl_append]

/-- A property of the files of one image that every run preserves holds after every history. -/
theorem runs_inv (bow : V → W) (P : Files V W → Prop)
    (hP : ∀ nw v k f, P f → P (detect bow nw v k f)) (rs : List (Run I V)) (s : I → Files V W)
    (i : I) (hs : P (s i)) : P (runs bow rs s i) := by
  unfold runs
  induction rs generalizing s with
  | nil => exact hs
  | cons r rs ih => rw [List.foldl_cons]; exact ih _ (hP _ _ _ _ hs)

/-- C75. Whatever was interrupted: words that can be read are those of the features that can be read, when
the data set had none of these files in the beginning. -/
theorem C75_words_match (bow : V → W) (rs : List (Run I V)) (i : I) (w : W)
    (h : loadWords (runs bow rs (fun _ => {}) i) = some w) :
    ∃ v, loadFeats (runs bow rs (fun _ => {}) i) = some v ∧ w = bow v := by
  have key := runs_inv bow (fun f => f.legacy = .absent ∧ (∀ w, f.words = .whole w → ∃ v, f.feats = .whole v ∧ w = bow v) ∧
      (f.words = .torn → ∃ v, f.feats = .whole v)) ?_ rs (fun _ => {}) i ?_
  · obtain ⟨h1, h2, -⟩ := key
    unfold loadWords at h
    cases hw : (runs bow rs (fun _ => {}) i).words with
    | absent => rw [hw] at h; cases h
    | torn => rw [hw] at h; cases h
    | whole w' =>
      rw [hw] at h
      cases h
      obtain ⟨v, hv, e⟩ := h2 w hw
      refine ⟨v, ?_, e⟩
      unfold loadFeats
      rw [h1, hv]
  · intro nw v k f ⟨h1, h2, h3⟩
    rcases detect_cases bow nw v k f with e | ⟨hs, e | e | ⟨-, e⟩ | ⟨-, e⟩ | ⟨-, e⟩ | ⟨-, e⟩ | ⟨-, e⟩ | ⟨-, e⟩⟩
    · rw [e]; exact ⟨h1, h2, h3⟩
    · -- features torn: then there were no words
      have hw : f.words = .absent := by
        cases hwd : f.words with
        | absent => rfl
        | torn =>
          obtain ⟨v', hv'⟩ := h3 hwd
          simp [skips, Files.hasFeats, hv', hwd, FileS.exist] at hs
        | whole w' =>
          obtain ⟨v', hv', -⟩ := h2 w' hwd
          simp [skips, Files.hasFeats, hv', hwd, FileS.exist] at hs
      rw [e]; simp only [hw]; exact ⟨h1, by simp, by simp⟩
    · have hw : f.words = .absent := by
        cases hwd : f.words with
        | absent => rfl
        | torn =>
          obtain ⟨v', hv'⟩ := h3 hwd
          simp [skips, Files.hasFeats, hv', hwd, FileS.exist] at hs
        | whole w' =>
          obtain ⟨v', hv', -⟩ := h2 w' hwd
          simp [skips, Files.hasFeats, hv', hwd, FileS.exist] at hs
      rw [e]; simp only [hw]; exact ⟨h1, by simp, by simp⟩
    · rw [e]; exact ⟨h1, by simp, by simp⟩
    · rw [e]; exact ⟨h1, by simp, by simp⟩
    · rw [e]; exact ⟨h1, by simp, by simp⟩
    · rw [e]; exact ⟨h1, by simp, by simp⟩
    · have hw : f.words = .absent := by
        cases hwd : f.words with
        | absent => rfl
        | torn =>
          obtain ⟨v', hv'⟩ := h3 hwd
          simp [skips, Files.hasFeats, hv', hwd, FileS.exist] at hs
        | whole w' =>
          obtain ⟨v', hv', -⟩ := h2 w' hwd
          simp [skips, Files.hasFeats, hv', hwd, FileS.exist] at hs
      rw [e]; simp only [hw]; exact ⟨h1, by simp, by simp⟩
    · have hw : f.words = .absent := by
        cases hwd : f.words with
        | absent => rfl
        | torn =>
          obtain ⟨v', hv'⟩ := h3 hwd
          simp [skips, Files.hasFeats, hv', hwd, FileS.exist] at hs
        | whole w' =>
          obtain ⟨v', hv', -⟩ := h2 w' hwd
          simp [skips, Files.hasFeats, hv', hwd, FileS.exist] at hs
      rw [e]; simp only [hw]; exact ⟨h1, by simp, by simp⟩
  · exact ⟨rfl, by simp, by simp⟩

/-- Specification: no run was interrupted while it was writing a file of the image. -/
def Clean (f : Files V W) : Prop := f.feats ≠ .torn ∧ f.legacy ≠ .torn ∧ f.words ≠ .torn ∧ f.report ≠ .torn

/-- C75. Runs that were interrupted only between the writing of files (or not begun) do no harm: the next
complete run leaves features for every image that can be read, words too if they are needed, and it does not
fail. -/
theorem C75_resume (bow : V → W) (r : Run I V) (hr : r.complete) (s : I → Files V W) (images : List I)
    (hs : ∀ i, Clean (s i)) :
    (∀ i, (loadFeats (run bow r s i)).isSome) ∧ (r.needWords = true → ∀ i, (loadWords (run bow r s i)).isSome) ∧
    reportsOk images (run bow r s) = true ∧ ∀ i, Clean (run bow r s i) := by
  have key : ∀ i, (loadFeats (run bow r s i)).isSome ∧ (r.needWords = true → (loadWords (run bow r s i)).isSome) ∧
      Clean (run bow r s i) := by
    intro i
    obtain ⟨h1, h2, h3, h4⟩ := hs i
    unfold run
    cases hk : skips r.needWords (s i) with
    | true =>
      have e : detect bow r.needWords (r.found i) (r.steps i) (s i) = s i := by unfold detect; rw [hk]; rfl
      rw [e]
      unfold skips Files.hasFeats at hk
      refine ⟨?_, ?_, h1, h2, h3, h4⟩
      · unfold loadFeats
        cases hl : (s i).legacy <;> cases hf : (s i).feats <;> simp_all [FileS.exist]
      · intro hn
        unfold loadWords
        cases hw : (s i).words <;> simp_all [FileS.exist]
    | false =>
      rw [detect_complete bow r.needWords (r.found i) (r.steps i) (hr i) (s i) hk]
      cases hn : r.needWords with
      | true =>
        refine ⟨?_, fun _ => rfl, ?_⟩
        · unfold loadFeats
          cases hl : (s i).legacy <;> simp_all
        · exact ⟨by simp, by simpa using h2, by simp, by simp⟩
      | false =>
        refine ⟨?_, ?_, ?_⟩
        · unfold loadFeats
          cases hl : (s i).legacy <;> simp_all
        · intro h; cases h
        · exact ⟨by simp, by simpa using h2, by simpa using h3, by simp⟩
  refine ⟨fun i => (key i).1, fun h i => (key i).2.1 h, ?_, fun i => (key i).2.2⟩
  unfold reportsOk
  rw [List.all_eq_true]
  intro i _
  simpa using (key i).2.2.2.2.2

/-- C75. A history whose interruptions all happened between the writing of files leaves no damage. -/
theorem C75_history (bow : V → W) (rs : List (Run I V)) (s : I → Files V W) (hs : ∀ i, Clean (s i))
    (hk : ∀ r ∈ rs, ∀ i, r.steps i % 2 = 0) : ∀ i, Clean (runs bow rs s i) := by
  unfold runs
  induction rs generalizing s with
  | nil => exact hs
  | cons r rs ih =>
    rw [List.foldl_cons]
    refine ih _ (fun i => ?_) (fun q hq => hk q (by simp [hq]))
    obtain ⟨h1, h2, h3, h4⟩ := hs i
    have he := hk r (by simp) i
    unfold run detect
    generalize r.steps i = k at he
    cases hsk : skips r.needWords (s i) with
    | true => simpa using hs i
    | false =>
      simp only [Bool.false_eq_true, if_false]
      cases r.needWords with
      | false =>
        match k with
        | 0 => exact hs i
        | 2 => exact ⟨by simp [writes], by simpa [writes] using h2, by simpa [writes] using h3, by simpa [writes] using h4⟩
        | 4 => exact ⟨by simp [writes], by simpa [writes] using h2, by simpa [writes] using h3, by simp [writes]⟩
        | 1 => simp at he
        | 3 => simp at he
        | k + 5 => exact ⟨by simp [writes], by simpa [writes] using h2, by simpa [writes] using h3, by simp [writes]⟩
      | true =>
        match k with
        | 0 => exact hs i
        | 2 => exact ⟨by simp [writes], by simpa [writes] using h2, by simpa [writes] using h3, by simpa [writes] using h4⟩
        | 4 => exact ⟨by simp [writes], by simpa [writes] using h2, by simp [writes], by simpa [writes] using h4⟩
        | 6 => exact ⟨by simp [writes], by simpa [writes] using h2, by simp [writes], by simp [writes]⟩
        | 1 => simp at he
        | 3 => simp at he
        | 5 => simp at he
        | k + 7 => exact ⟨by simp [writes], by simpa [writes] using h2, by simp [writes], by simp [writes]⟩

theorem stable_of_skips (bow : V → W) (rs : List (Run I V)) (s : I → Files V W) (i : I)
    (h : skips true (s i) = true ∨ ((∀ r ∈ rs, r.needWords = false) ∧ skips false (s i) = true)) :
    runs bow rs s i = s i := by
  unfold runs
  induction rs generalizing s with
  | nil => rfl
  | cons r rs ih =>
    rw [List.foldl_cons]
    have e : run bow r s i = s i := by
      unfold run detect
      have : skips r.needWords (s i) = true := by
        rcases h with h | ⟨h, h'⟩
        · unfold skips at h ⊢
          cases r.needWords <;> simp_all
        · rw [h r (by simp)]; exact h'
      rw [this]; rfl
    rw [ih]
    · exact e
    · rw [e]
      rcases h with h | ⟨h, h'⟩
      · exact Or.inl h
      · exact Or.inr ⟨fun q hq => h q (by simp [hq]), h'⟩

/-- C75. Work is not redone: if one of the two feature files of an image is there, and its words or none of the
runs needs words, then no later run changes any file of the image, interrupted or not. -/
theorem C75_stable (bow : V → W) (rs : List (Run I V)) (s : I → Files V W) (i : I)
    (hf : (s i).feats ≠ .absent ∨ (s i).legacy ≠ .absent)
    (hw : (s i).words ≠ .absent ∨ ∀ r ∈ rs, r.needWords = false) :
    runs bow rs s i = s i := by
  have he : ∀ {α : Type} (x : FileS α), x ≠ .absent → x.exist = true := by
    intro α x hx; cases x <;> first | exact absurd rfl hx | rfl
  have hh : (s i).hasFeats = true := by
    unfold Files.hasFeats
    rcases hf with h | h
    · rw [he _ h]; rfl
    · rw [he _ h, Bool.or_true]
  refine stable_of_skips bow rs s i ?_
  rcases hw with h | h
  · left; unfold skips; rw [hh, he _ h]; rfl
  · right; refine ⟨h, ?_⟩; unfold skips; rw [hh]; rfl

/-- C75. An interruption while the features of an image are written is never repaired when words are not
needed: every later run skips the image and its features cannot be read. -/
theorem C75_torn_features (bow : V → W) (r : Run I V) (i : I) (hn : r.needWords = false) (hk : r.steps i = 1)
    (rs : List (Run I V)) (hrs : ∀ q ∈ rs, q.needWords = false) :
    loadFeats (runs bow (r :: rs) (fun _ => {}) i) = none := by
  have e : run bow r (fun _ => {}) i = { feats := .torn } := by
    unfold run; rw [hn, hk]; rfl
  have : runs bow (r :: rs) (fun _ => {}) = runs bow rs (run bow r (fun _ => {})) := rfl
  rw [this, stable_of_skips bow rs _ i (Or.inr ⟨hrs, by rw [e]; rfl⟩), e]
  rfl

/-- C75. With words needed the same interruption is repaired by the next complete run, but one while the words
are written never is. -/
theorem C75_torn_words (bow : V → W) (r : Run I V) (i : I) (hn : r.needWords = true) (rs : List (Run I V)) :
    (r.steps i = 1 → ∀ q : Run I V, q.needWords = true → q.complete →
      loadFeats (runs bow [r, q] (fun _ => {}) i) = some (q.found i) ∧
      loadWords (runs bow [r, q] (fun _ => {}) i) = some (bow (q.found i))) ∧
    (r.steps i = 3 → loadWords (runs bow (r :: rs) (fun _ => {}) i) = none) := by
  constructor
  · intro hk q hq hc
    have e : run bow r (fun _ => {}) i = { feats := .torn } := by
      unfold run; rw [hn, hk]; rfl
    have e2 : runs bow [r, q] (fun _ => {}) i = detect bow q.needWords (q.found i) (q.steps i) (run bow r (fun _ => {}) i) := rfl
    rw [e2, e, hq, detect_complete bow true _ _ (hc i) _ rfl]
    exact ⟨rfl, rfl⟩
  · intro hk
    have e : run bow r (fun _ => {}) i = { feats := .whole (r.found i), words := .torn } := by
      unfold run; rw [hn, hk]; rfl
    have : runs bow (r :: rs) (fun _ => {}) = runs bow rs (run bow r (fun _ => {})) := rfl
    rw [this, stable_of_skips bow rs _ i (Or.inl (by rw [e]; rfl)), e]
    rfl

/-- C75. An interruption while the report of an image is written makes every later run of the command fail
at its end, although all features are complete. -/
theorem C75_torn_report (bow : V → W) (r : Run I V) (i : I) (hk : r.steps i = if r.needWords then 5 else 3)
    (rs : List (Run I V)) (hrs : ∀ q ∈ rs, q.needWords = r.needWords) (images : List I) (hi : i ∈ images) :
    reportsOk images (runs bow (r :: rs) (fun _ => {})) = false ∧
    loadFeats (runs bow (r :: rs) (fun _ => {}) i) = some (r.found i) := by
  have e : ∃ w, run bow r (fun _ => {}) i = { feats := .whole (r.found i), words := w, report := .torn } ∧
      skips r.needWords (run bow r (fun _ => {}) i) = true := by
    unfold run
    rw [hk]
    cases r.needWords with
    | true => exact ⟨_, rfl, rfl⟩
    | false => exact ⟨_, rfl, rfl⟩
  obtain ⟨w, e, hsk⟩ := e
  have hst : runs bow (r :: rs) (fun _ => {}) i = { feats := .whole (r.found i), words := w, report := .torn } := by
    have : runs bow (r :: rs) (fun _ => {}) = runs bow rs (run bow r (fun _ => {})) := rfl
    rw [this, stable_of_skips bow rs _ i ?_, e]
    cases hn : r.needWords with
    | true => rw [hn] at hsk; exact Or.inl hsk
    | false => rw [hn] at hsk; exact Or.inr ⟨fun q hq => by rw [hrs q hq, hn], hsk⟩
  constructor
  · unfold reportsOk
    rw [List.all_eq_false]
    refine ⟨i, hi, ?_⟩
    rw [hst]
    simp
  · rw [hst]; rfl

/-- C75. Words computed for an image with a legacy feature file belong to the new features, but the legacy
features are loaded. -/
theorem C75_legacy_words (bow : V → W) (r : Run I V) (hr : r.complete) (hn : r.needWords = true) (v : V)
    (s : I → Files V W) (i : I) (hs : s i = { legacy := .whole v }) :
    loadFeats (run bow r s i) = some v ∧ loadWords (run bow r s i) = some (bow (r.found i)) := by
  unfold run
  rw [hs, hn, detect_complete bow true _ _ (hr i) _ rfl]
  exact ⟨rfl, rfl⟩

/-- A history: words for image 0 interrupted after its features, image 1 not begun; the next run finishes
both. -/
example : (runs (fun v : Nat => v + 100) [⟨true, fun i : Nat => i + 1, fun i => if i = 0 then 2 else 0⟩,
      ⟨true, fun i => i + 5, fun _ => 6⟩] (fun _ => {}) 0) =
    { feats := .whole 5, words := .whole 105, report := .whole () } ∧
    (runs (fun v : Nat => v + 100) [⟨true, fun i : Nat => i + 1, fun i => if i = 0 then 2 else 0⟩,
      ⟨true, fun i => i + 5, fun _ => 6⟩] (fun _ => {}) 1) =
    { feats := .whole 6, words := .whole 106, report := .whole () } := by
  decide

end Verif.DetectStage
