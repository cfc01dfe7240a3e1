import Verif.Model.Matching
import Mathlib.Algebra.Order.Ring.Rat
import Mathlib.Tactic.NormNum
import Mathlib.Tactic.Linarith

/-!
Properties C25 (symmetric matching), C26 (word matching), C27 (filters), C28 (match files) and C29
(masked indices).
-/
set_option linter.unusedSectionVars false
set_option linter.unusedSimpArgs false
namespace Verif.Matching

variable {D : Type} [Field D] [LinearOrder D] [IsStrictOrderedRing D]

/-! ### One-way matchers as partial functions -/

theorem mem_bruteForceFrom (ratio : D) (q0 : Nat) (knn : List (List (Nat × D))) (q t : Nat) :
    (q, t) ∈ bruteForceFrom ratio q0 knn ↔
      q0 ≤ q ∧ ∃ nn, knn[q - q0]? = some nn ∧ lowe ratio nn = some t := by
  induction knn generalizing q0 with
  | nil => simp [bruteForceFrom]
  | cons nn rest ih =>
    have key : (q, t) ∈ bruteForceFrom ratio (q0 + 1) rest ↔
        q0 < q ∧ ∃ nn', (nn :: rest)[q - q0]? = some nn' ∧ lowe ratio nn' = some t := by
      rw [ih]
      constructor
      · rintro ⟨h1, nn', h2, h3⟩
        refine ⟨h1, nn', ?_, h3⟩
        rw [show q - q0 = (q - (q0 + 1)) + 1 by omega]; simpa using h2
      · rintro ⟨h1, nn', h2, h3⟩
        refine ⟨h1, nn', ?_, h3⟩
        rw [show q - q0 = (q - (q0 + 1)) + 1 by omega] at h2; simpa using h2
    unfold bruteForceFrom
    cases hl : lowe ratio nn with
    | none =>
      simp only
      rw [key]
      constructor
      · rintro ⟨h1, h2⟩; exact ⟨by omega, h2⟩
      · rintro ⟨h1, nn', h2, h3⟩
        rcases Nat.lt_or_ge q0 q with h | h
        · exact ⟨h, nn', h2, h3⟩
        · have : q - q0 = 0 := by omega
          rw [this] at h2
          simp only [List.getElem?_cons_zero, Option.some.injEq] at h2
          subst h2; rw [hl] at h3; cases h3
    | some t' =>
      simp only [List.mem_cons, Prod.mk.injEq]
      rw [key]
      constructor
      · rintro (⟨rfl, rfl⟩ | ⟨h1, h2⟩)
        · exact ⟨Nat.le_refl _, nn, by simp, hl⟩
        · exact ⟨by omega, h2⟩
      · rintro ⟨h1, nn', h2, h3⟩
        rcases Nat.lt_or_ge q0 q with h | h
        · exact Or.inr ⟨h, nn', h2, h3⟩
        · have e : q - q0 = 0 := by omega
          rw [e] at h2
          simp only [List.getElem?_cons_zero, Option.some.injEq] at h2
          subst h2; rw [hl] at h3; cases h3
          exact Or.inl ⟨by omega, rfl⟩

/-! ### C25 -/

/-- The accepted match of query `q`: the nearest neighbour if it passes the Lowe test against the
second nearest. -/
def accepted (ratio : D) (knn : List (List (Nat × D))) (q : Nat) : Option Nat :=
  (knn[q]?).bind (fun nn =>
    match nn with
    | [m, n] => if m.2 < ratio * n.2 then some m.1 else none
    | _ => none)

theorem lowe_eq (ratio : D) (nn : List (Nat × D)) : lowe ratio nn =
    (match nn with
    | [m, n] => if m.2 < ratio * n.2 then some m.1 else none
    | _ => none) := by
  unfold lowe; rfl

theorem mem_brute (ratio : D) (knn : List (List (Nat × D))) (q t : Nat) :
    (q, t) ∈ matchBruteForce ratio knn ↔ accepted ratio knn q = some t := by
  unfold matchBruteForce accepted
  rw [mem_bruteForceFrom]
  simp only [Nat.zero_le, Nat.sub_zero, true_and, lowe_eq]
  cases h : knn[q]? with
  | none => simp
  | some nn => simp

theorem mem_flann (ratio : D) (knn : List (List (Nat × D))) (q t : Nat) :
    (t, q) ∈ matchFlann ratio knn ↔ accepted (ratio ^ 2) knn q = some t := by
  unfold matchFlann
  rw [← mem_brute]
  simp [matchBruteForce]

theorem mem_intersect (ij ji : List Match) (a b : Nat) :
    (a, b) ∈ intersect ij ji ↔ (a, b) ∈ ij ∧ (b, a) ∈ ji := by
  simp [intersect]

theorem intersect_nodup (ij ji : List Match) : (intersect ij ji).Nodup :=
  (List.nodup_dedup _).filter _

/-- A list of pairs where every pair is given by two partial functions that must agree. -/
def OneToOne (out : List Match) : Prop :=
  out.Nodup ∧ ∀ p ∈ out, ∀ q ∈ out, (p.1 = q.1 ∨ p.2 = q.2) → p = q

theorem oneToOne_of {out : List Match} (hn : out.Nodup) (f g : Nat → Option Nat)
    (h : ∀ a b, (a, b) ∈ out → f a = some b ∧ g b = some a) : OneToOne out := by
  refine ⟨hn, ?_⟩
  rintro ⟨a, b⟩ hp ⟨c, d⟩ hq hor
  obtain ⟨h1, h2⟩ := h _ _ hp
  obtain ⟨h3, h4⟩ := h _ _ hq
  simp only at hor
  rcases hor with rfl | rfl
  · rw [h1] at h3; cases h3; rfl
  · rw [h2] at h4; cases h4; rfl

/-- Brute-force symmetric matching returns (i, j) iff i's accepted match is j and j's accepted match
is i; the result is one-to-one, without duplicates, and swapping the images swaps the pairs. -/
theorem C25_brute_force (ratio : D) (knnij knnji : List (List (Nat × D))) :
    (∀ i j, (i, j) ∈ matchBruteForceSymmetric ratio knnij knnji ↔
      accepted ratio knnij i = some j ∧ accepted ratio knnji j = some i) ∧
    OneToOne (matchBruteForceSymmetric ratio knnij knnji) ∧
    (∀ i j, (i, j) ∈ matchBruteForceSymmetric ratio knnij knnji ↔
      (j, i) ∈ matchBruteForceSymmetric ratio knnji knnij) := by
  have h : ∀ kij kji i j, (i, j) ∈ matchBruteForceSymmetric ratio kij kji ↔
      accepted ratio kij i = some j ∧ accepted ratio kji j = some i := by
    intro kij kji i j
    unfold matchBruteForceSymmetric
    rw [mem_intersect, mem_brute, mem_brute]
  exact ⟨h _ _, oneToOne_of (intersect_nodup _ _) _ _ (fun a b => (h _ _ a b).1),
    fun i j => by rw [h, h]; exact And.comm⟩

/-- The same for FLANN (`knnj` are the answers for the features of image j, queried in the index of
image i, with squared distances). -/
theorem C25_flann (ratio : D) (knnj knni : List (List (Nat × D))) :
    (∀ i j, (i, j) ∈ matchFlannSymmetric ratio knnj knni ↔
      accepted (ratio ^ 2) knnj j = some i ∧ accepted (ratio ^ 2) knni i = some j) ∧
    OneToOne (matchFlannSymmetric ratio knnj knni) ∧
    (∀ i j, (i, j) ∈ matchFlannSymmetric ratio knnj knni ↔
      (j, i) ∈ matchFlannSymmetric ratio knni knnj) := by
  have h : ∀ kj ki i j, (i, j) ∈ matchFlannSymmetric ratio kj ki ↔
      accepted (ratio ^ 2) kj j = some i ∧ accepted (ratio ^ 2) ki i = some j := by
    intro kj ki i j
    unfold matchFlannSymmetric
    rw [mem_intersect, mem_flann, mem_flann]
  exact ⟨h _ _, oneToOne_of (intersect_nodup _ _) _ _ (fun a b hab => ((h _ _ a b).1 hab).symm),
    fun i j => by rw [h, h]; exact And.comm⟩

example : matchBruteForceSymmetric (8 / 10 : ℚ)
    [[(1, 10), (0, 20)], [(1, 15), (0, 16)], [(2, 1), (0, 9)]]
    [[(0, 20), (1, 22)], [(0, 10), (1, 15)], [(2, 1), (0, 9)]] = [(0, 1), (2, 2)] := by
  decide +kernel

/-! ### C26 -/

/-- Candidates examined for one query, as listed in the documentation of the algorithm: the features
of image 2 in the bucket of each word of the query, bucket after bucket, stopping after the bucket
with which `max_checks` is reached. -/
def examined (w2 : List Int) (maxChecks : Int) : Nat → List Int → List Nat
  | _, [] => []
  | n, word :: ws =>
    let c := (List.range w2.length).filter (fun m => w2[m]? = some word)
    if ((n + c.length : Nat) : Int) ≥ maxChecks then c
    else c ++ examined w2 maxChecks (n + c.length) ws

/-- Candidate `m` wins the list of candidates `l`: it is at one position of `l`, strictly nearer than
all earlier ones, at least as near as all later ones, and nearer than `ratio` times every other. -/
def Wins (dist : Nat → D) (ratio : D) (l : List Nat) (m : Nat) : Prop :=
  ∃ l1 l2, l = l1 ++ m :: l2 ∧ (∀ x ∈ l1, dist m < dist x) ∧ (∀ x ∈ l2, dist m ≤ dist x) ∧
    ∀ x ∈ l1 ++ l2, dist m < ratio * dist x

theorem bucketFrom_eq (word : Int) (i : Nat) (w2 : List Int) :
    bucketFrom word i w2 = (List.range' i w2.length).filter (fun m => w2[m - i]? = some word) := by
  induction w2 generalizing i with
  | nil => simp [bucketFrom]
  | cons w ws ih =>
    have hrest : (List.range' (i + 1) ws.length).filter (fun m => (w :: ws)[m - i]? = some word) =
        (List.range' (i + 1) ws.length).filter (fun m => ws[m - (i + 1)]? = some word) := by
      apply List.filter_congr
      intro m hm
      have := (List.mem_range'_1.1 hm).1
      rw [show m - i = (m - (i + 1)) + 1 by omega]; simp
    rw [List.length_cons, List.range'_succ, List.filter_cons, hrest, ← ih]
    simp only [bucketFrom]
    by_cases h : w = word <;> simp [h]

theorem bucket_eq (w2 : List Int) (word : Int) :
    bucket w2 word = (List.range w2.length).filter (fun m => w2[m]? = some word) := by
  unfold bucket
  rw [bucketFrom_eq, List.range_eq_range']; simp

theorem wordsLoop_eq (dist : Nat → D) (w2 : List Int) (mc : Int) (row : List Int) (n : Nat)
    (b : Best D) :
    wordsLoop dist w2 mc row n b = (examined w2 mc n row).foldl (checkCandidate dist) b := by
  induction row generalizing n b with
  | nil => rfl
  | cons word ws ih =>
    unfold wordsLoop examined
    simp only [bucket_eq]
    split
    · rfl
    · rw [ih, List.foldl_append]

/-- What `best` and `second` mean after a list of candidates. -/
inductive BestSpec (dist : Nat → D) : List Nat → Best D → Prop
  | nil : BestSpec dist [] ⟨none, none⟩
  | one (m : Nat) : BestSpec dist [m] ⟨some (m, dist m), none⟩
  | many (l1 l2 : List Nat) (m : Nat) (s : D) (h1 : ∀ x ∈ l1, dist m < dist x)
      (h2 : ∀ x ∈ l2, dist m ≤ dist x) (h3 : ∀ x ∈ l1 ++ l2, s ≤ dist x)
      (h4 : ∃ x ∈ l1 ++ l2, dist x = s) : BestSpec dist (l1 ++ m :: l2) ⟨some (m, dist m), some s⟩

theorem bestSpec_step {dist : Nat → D} {l : List Nat} {b : Best D} (h : BestSpec dist l b) (c : Nat) :
    BestSpec dist (l ++ [c]) (checkCandidate dist b c) := by
  cases h with
  | nil => simpa [checkCandidate, ltInf] using BestSpec.one c
  | one m =>
    by_cases hc : dist c < dist m
    · have : BestSpec dist ([m] ++ c :: []) ⟨some (c, dist c), some (dist m)⟩ :=
        .many [m] [] c (dist m) (by simpa using hc) (by simp) (by simp) (by simp)
      simpa [checkCandidate, ltInf, hc] using this
    · have : BestSpec dist ([] ++ m :: [c]) ⟨some (m, dist m), some (dist c)⟩ :=
        .many [] [c] m (dist c) (by simp) (by simpa using hc) (by simp) (by simp)
      simpa [checkCandidate, ltInf, hc] using this
  | many l1 l2 m s h1 h2 h3 h4 =>
    by_cases hc : dist c < dist m
    · have hsm : dist m ≤ s := by
        obtain ⟨x, hx, rfl⟩ := h4
        rcases List.mem_append.1 hx with hx | hx
        · exact le_of_lt (h1 x hx)
        · exact h2 x hx
      have : BestSpec dist ((l1 ++ m :: l2) ++ c :: []) ⟨some (c, dist c), some (dist m)⟩ := by
        apply BestSpec.many
        · intro x hx
          simp only [List.mem_append, List.mem_cons] at hx
          rcases hx with hx | rfl | hx
          · exact hc.trans (h1 x hx)
          · exact hc
          · exact lt_of_lt_of_le hc (h2 x hx)
        · simp
        · intro x hx
          simp only [List.append_nil, List.mem_append, List.mem_cons] at hx
          rcases hx with hx | rfl | hx
          · exact le_of_lt (h1 x hx)
          · exact le_refl _
          · exact h2 x hx
        · exact ⟨m, by simp, rfl⟩
      simpa [checkCandidate, ltInf, hc] using this
    · have hc' : dist m ≤ dist c := not_lt.1 hc
      have h2' : ∀ x ∈ l2 ++ [c], dist m ≤ dist x := by
        intro x hx
        rcases List.mem_append.1 hx with hx | hx
        · exact h2 x hx
        · simp only [List.mem_singleton] at hx; subst hx; exact hc'
      by_cases hs : dist c < s
      · have : BestSpec dist (l1 ++ m :: (l2 ++ [c])) ⟨some (m, dist m), some (dist c)⟩ := by
          apply BestSpec.many _ _ _ _ h1 h2'
          · intro x hx
            simp only [List.mem_append, List.mem_singleton] at hx
            rcases hx with hx | hx | rfl
            · exact le_of_lt (lt_of_lt_of_le hs (h3 x (List.mem_append_left _ hx)))
            · exact le_of_lt (lt_of_lt_of_le hs (h3 x (List.mem_append_right _ hx)))
            · exact le_refl _
          · exact ⟨c, by simp, rfl⟩
        simpa [checkCandidate, ltInf, hc, hs] using this
      · have hs' : s ≤ dist c := not_lt.1 hs
        have : BestSpec dist (l1 ++ m :: (l2 ++ [c])) ⟨some (m, dist m), some s⟩ := by
          apply BestSpec.many _ _ _ _ h1 h2'
          · intro x hx
            simp only [List.mem_append, List.mem_singleton] at hx
            rcases hx with hx | hx | rfl
            · exact h3 x (List.mem_append_left _ hx)
            · exact h3 x (List.mem_append_right _ hx)
            · exact hs'
          · obtain ⟨x, hx, e⟩ := h4
            refine ⟨x, ?_, e⟩
            simp only [List.mem_append] at hx ⊢
            tauto
        simpa [checkCandidate, ltInf, hc, hs] using this

theorem bestSpec_foldl (dist : Nat → D) (l l0 : List Nat) (b : Best D) (h : BestSpec dist l0 b) :
    BestSpec dist (l0 ++ l) (l.foldl (checkCandidate dist) b) := by
  induction l generalizing l0 b with
  | nil => simpa using h
  | cons c l ih =>
    have := ih (l0 ++ [c]) _ (bestSpec_step h c)
    simpa using this

/-- Two decompositions of the same list with the "first minimum" property are the same. -/
theorem first_min_unique {dist : Nat → D} {l1 l2 l1' l2' : List Nat} {m m' : Nat}
    (e : l1 ++ m :: l2 = l1' ++ m' :: l2') (h1 : ∀ x ∈ l1, dist m < dist x)
    (h2 : ∀ x ∈ l2, dist m ≤ dist x) (h1' : ∀ x ∈ l1', dist m' < dist x)
    (h2' : ∀ x ∈ l2', dist m' ≤ dist x) : l1 = l1' ∧ m = m' ∧ l2 = l2' := by
  induction l1 generalizing l1' with
  | nil =>
    cases l1' with
    | nil => simp at e; exact ⟨rfl, e.1, e.2⟩
    | cons a l1' =>
      simp only [List.nil_append, List.cons_append, List.cons.injEq] at e
      obtain ⟨rfl, e⟩ := e
      have := h1' m List.mem_cons_self
      have hm : m' ∈ l2 := by rw [e]; simp
      exact absurd (h2 m' hm) (not_le.2 this)
  | cons a l1 ih =>
    cases l1' with
    | nil =>
      simp only [List.nil_append, List.cons_append, List.cons.injEq] at e
      obtain ⟨rfl, e⟩ := e
      have := h1 a List.mem_cons_self
      have hm : m ∈ l2' := by rw [← e]; simp
      exact absurd (h2' m hm) (not_le.2 this)
    | cons a' l1' =>
      simp only [List.cons_append, List.cons.injEq] at e
      obtain ⟨rfl, e⟩ := e
      obtain ⟨r1, r2, r3⟩ := ih e (fun x hx => h1 x (List.mem_cons_of_mem _ hx))
        (fun x hx => h1' x (List.mem_cons_of_mem _ hx))
      exact ⟨by rw [r1], r2, r3⟩

theorem loweInf_iff {dist : Nat → D} {ratio : D} (hr : 0 < ratio) {l : List Nat} {b : Best D}
    (h : BestSpec dist l b) (m : Nat) : loweInf ratio b = some m ↔ Wins dist ratio l m := by
  cases h with
  | nil => simp [loweInf, Wins]
  | one m' =>
    simp only [loweInf, hr, if_true, Option.some.injEq]
    constructor
    · rintro rfl; exact ⟨[], [], by simp, by simp, by simp, by simp⟩
    · rintro ⟨l1, l2, e, -⟩
      cases l1 with
      | nil => simp at e; exact e.1
      | cons a l1 => simp at e
  | many l1 l2 m' s h1 h2 h3 h4 =>
    simp only [loweInf]
    constructor
    · intro h
      split at h
      · rename_i hlt
        cases h
        refine ⟨l1, l2, rfl, h1, h2, ?_⟩
        intro x hx
        exact lt_of_lt_of_le hlt (mul_le_mul_of_nonneg_left (h3 x hx) (le_of_lt hr))
      · cases h
    · rintro ⟨l1', l2', e, g1, g2, g3⟩
      obtain ⟨rfl, rfl, rfl⟩ := first_min_unique e h1 h2 g1 g2
      obtain ⟨x, hx, rfl⟩ := h4
      rw [if_pos (g3 x hx)]

theorem mem_matchWordsFrom (dist : Nat → Nat → D) (w2 : List Int) (ratio : D) (mc : Int) (i0 : Nat)
    (rows : List (List Int)) (i m : Nat) :
    (i, m) ∈ matchWordsFrom dist w2 ratio mc i0 rows ↔ i0 ≤ i ∧ ∃ row, rows[i - i0]? = some row ∧
      loweInf ratio (wordsLoop (dist i) w2 mc row 0 ⟨none, none⟩) = some m := by
  induction rows generalizing i0 with
  | nil => simp [matchWordsFrom]
  | cons row rows ih =>
    have key : (i, m) ∈ matchWordsFrom dist w2 ratio mc (i0 + 1) rows ↔
        i0 < i ∧ ∃ row', (row :: rows)[i - i0]? = some row' ∧
          loweInf ratio (wordsLoop (dist i) w2 mc row' 0 ⟨none, none⟩) = some m := by
      rw [ih]
      constructor
      · rintro ⟨h1, r', h2, h3⟩
        refine ⟨h1, r', ?_, h3⟩
        rw [show i - i0 = (i - (i0 + 1)) + 1 by omega]; simpa using h2
      · rintro ⟨h1, r', h2, h3⟩
        refine ⟨h1, r', ?_, h3⟩
        rw [show i - i0 = (i - (i0 + 1)) + 1 by omega] at h2; simpa using h2
    unfold matchWordsFrom
    cases hl : loweInf ratio (wordsLoop (dist i0) w2 mc row 0 ⟨none, none⟩) with
    | none =>
      simp only
      rw [key]
      constructor
      · rintro ⟨h1, h2⟩; exact ⟨by omega, h2⟩
      · rintro ⟨h1, r', h2, h3⟩
        rcases Nat.lt_or_ge i0 i with h | h
        · exact ⟨h, r', h2, h3⟩
        · have e : i = i0 := by omega
          subst e
          simp only [Nat.sub_self, List.getElem?_cons_zero, Option.some.injEq] at h2
          subst h2; rw [hl] at h3; cases h3
    | some t' =>
      simp only [List.mem_cons, Prod.mk.injEq]
      rw [key]
      constructor
      · rintro (⟨rfl, rfl⟩ | ⟨h1, h2⟩)
        · exact ⟨Nat.le_refl _, row, by simp, hl⟩
        · exact ⟨by omega, h2⟩
      · rintro ⟨h1, r', h2, h3⟩
        rcases Nat.lt_or_ge i0 i with h | h
        · exact Or.inr ⟨h, r', h2, h3⟩
        · have e : i = i0 := by omega
          subst e
          simp only [Nat.sub_self, List.getElem?_cons_zero, Option.some.injEq] at h2
          subst h2; rw [hl] at h3; cases h3
          exact Or.inl ⟨rfl, rfl⟩

theorem matchWordsFrom_keys (dist : Nat → Nat → D) (w2 : List Int) (ratio : D) (mc : Int) (i0 : Nat)
    (rows : List (List Int)) : ((matchWordsFrom dist w2 ratio mc i0 rows).map Prod.fst).Nodup := by
  induction rows generalizing i0 with
  | nil => simp [matchWordsFrom]
  | cons row rows ih =>
    unfold matchWordsFrom
    split
    · rename_i m hm
      simp only [List.map_cons, List.nodup_cons]
      refine ⟨?_, ih _⟩
      intro h
      obtain ⟨⟨a, b⟩, h1, h2⟩ := List.mem_map.1 h
      have := ((mem_matchWordsFrom dist w2 ratio mc (i0 + 1) rows a b).1 h1).1
      simp only at h2
      omega
    · exact ih _

/-- Word matching: query `i` is matched to `m` iff `m` wins the examined candidates of `i` — it is
the nearest of them and nearer than `ratio` times every other one; each query appears at most once. -/
theorem C26_words (dist : Nat → Nat → D) (w1 : List (List Int)) (w2 : List Int) (ratio : D)
    (hr : 0 < ratio) (mc : Int) :
    (∀ i m, (i, m) ∈ matchUsingWords dist w1 w2 ratio mc ↔
      ∃ row, w1[i]? = some row ∧ Wins (dist i) ratio (examined w2 mc 0 row) m) ∧
    ((matchUsingWords dist w1 w2 ratio mc).map Prod.fst).Nodup := by
  refine ⟨?_, matchWordsFrom_keys _ _ _ _ _ _⟩
  intro i m
  unfold matchUsingWords
  rw [mem_matchWordsFrom]
  simp only [Nat.zero_le, Nat.sub_zero, true_and]
  constructor
  · rintro ⟨row, h1, h2⟩
    refine ⟨row, h1, ?_⟩
    rw [wordsLoop_eq] at h2
    have := bestSpec_foldl (dist i) (examined w2 mc 0 row) [] _ .nil
    exact (loweInf_iff hr (by simpa using this) m).1 h2
  · rintro ⟨row, h1, h2⟩
    refine ⟨row, h1, ?_⟩
    rw [wordsLoop_eq]
    have := bestSpec_foldl (dist i) (examined w2 mc 0 row) [] _ .nil
    exact (loweInf_iff hr (by simpa using this) m).2 h2

/-- Bound on the work: every examined candidate has one of the query's words, and the number of
candidates examined before the last bucket looked at is below `max_checks`. -/
theorem C26_checks (w2 : List Int) (mc : Int) (row : List Int) :
    (∀ m ∈ examined w2 mc 0 row, ∃ w ∈ row, w2[m]? = some w) ∧
    (examined w2 mc 0 row = [] ∨ ∃ (before last : List Nat) (w : Int), w ∈ row ∧
      examined w2 mc 0 row = before ++ last ∧ (∀ m ∈ last, w2[m]? = some w) ∧
      (before = [] ∨ (before.length : Int) < mc)) := by
  have gen : ∀ (row : List Int) (n : Nat),
      (∀ m ∈ examined w2 mc n row, ∃ w ∈ row, w2[m]? = some w) ∧
      (examined w2 mc n row = [] ∨ ∃ (before last : List Nat) (w : Int), w ∈ row ∧
        examined w2 mc n row = before ++ last ∧ (∀ m ∈ last, w2[m]? = some w) ∧
        (before = [] ∨ ((n + before.length : Nat) : Int) < mc)) := by
    intro row
    induction row with
    | nil => intro n; simp [examined]
    | cons word ws ih =>
      intro n
      have hc : ∀ m ∈ (List.range w2.length).filter (fun m => w2[m]? = some word),
          w2[m]? = some word := by
        intro m hm; simpa using (List.mem_filter.1 hm).2
      unfold examined
      simp only
      generalize (List.range w2.length).filter (fun m => w2[m]? = some word) = c at hc ⊢
      split
      · refine ⟨fun m hm => ⟨word, List.mem_cons_self, hc m hm⟩, Or.inr ⟨[], c, word, ?_⟩⟩
        simpa using hc
      · rename_i hlt
        obtain ⟨i1, i2⟩ := ih (n + c.length)
        constructor
        · intro m hm
          rcases List.mem_append.1 hm with hm | hm
          · exact ⟨word, List.mem_cons_self, hc m hm⟩
          · obtain ⟨w, hw, e⟩ := i1 m hm
            exact ⟨w, List.mem_cons_of_mem _ hw, e⟩
        · right
          rcases i2 with e | ⟨before, last, w, hw, e, hl, hb⟩
          · refine ⟨[], c, word, List.mem_cons_self, by simp [e], hc, Or.inl rfl⟩
          · refine ⟨c ++ before, last, w, List.mem_cons_of_mem _ hw, by simp [e], hl, ?_⟩
            right
            rcases hb with rfl | hb
            · simp only [List.append_nil]; omega
            · simp only [List.length_append]; omega
  have := gen row 0
  simpa using this

/-- Symmetric word matching is one-to-one and exactly the mutual matches. -/
theorem C25_words (dist : Nat → Nat → D) (w1 w2 : List (List Int)) (ratio : D) (mc : Int) :
    (∀ i j, (i, j) ∈ matchWordsSymmetric dist w1 w2 ratio mc ↔
      (i, j) ∈ matchUsingWords dist w1 (w2.map (·.headD 0)) ratio mc ∧
      (j, i) ∈ matchUsingWords (fun j i => dist i j) w2 (w1.map (·.headD 0)) ratio mc) ∧
    OneToOne (matchWordsSymmetric dist w1 w2 ratio mc) ∧
    (∀ i j, (i, j) ∈ matchWordsSymmetric dist w1 w2 ratio mc ↔
      (j, i) ∈ matchWordsSymmetric (fun j i => dist i j) w2 w1 ratio mc) := by
  have h : ∀ i j, (i, j) ∈ matchWordsSymmetric dist w1 w2 ratio mc ↔
      (i, j) ∈ matchUsingWords dist w1 (w2.map (·.headD 0)) ratio mc ∧
      (j, i) ∈ matchUsingWords (fun j i => dist i j) w2 (w1.map (·.headD 0)) ratio mc := by
    intro i j; unfold matchWordsSymmetric; rw [mem_intersect]
  have uniq : ∀ (d : Nat → Nat → D) r w, ∀ p ∈ matchUsingWords d r w ratio mc,
      ∀ q ∈ matchUsingWords d r w ratio mc, p.1 = q.1 → p = q := fun d r w p hp q hq e =>
    List.inj_on_of_nodup_map (matchWordsFrom_keys d w ratio mc 0 r) hp hq e
  refine ⟨h, ⟨intersect_nodup _ _, ?_⟩, ?_⟩
  · rintro ⟨a, b⟩ hp ⟨c, d⟩ hq hor
    obtain ⟨h1, h2⟩ := (h _ _).1 hp
    obtain ⟨h3, h4⟩ := (h _ _).1 hq
    simp only at hor
    rcases hor with rfl | rfl
    · exact uniq _ _ _ _ h1 _ h3 rfl
    · have := uniq _ _ _ _ h2 _ h4 rfl
      simp only [Prod.mk.injEq, true_and] at this
      rw [this]
  · intro i j
    rw [h]
    unfold matchWordsSymmetric
    rw [mem_intersect]
    exact And.comm

example : matchUsingWords (fun i m => ((i : ℚ) * 10 - m * 10) ^ 2 + 1) [[5, 7], [7, 5], [9, 9]]
    [5, 7, 5] (8 / 10) 2 = [(0, 0), (1, 1)] ∧ (0 : ℚ) < 8 / 10 := by
  constructor
  · decide +kernel
  · norm_num

/-! ### C29 -/

theorem flatnonzeroFrom_spec {α : Type} (i : Nat) (m : List Bool) (xs : List α)
    (h : m.length = xs.length) :
    (flatnonzeroFrom i m).length = (select m xs).length ∧
    ∀ k, k < (select m xs).length → ∃ j, (flatnonzeroFrom i m)[k]? = some (i + j) ∧
      m[j]? = some true ∧ xs[j]? = (select m xs)[k]? := by
  induction m generalizing i xs with
  | nil => cases xs <;> simp_all [flatnonzeroFrom, select]
  | cons b m ih =>
    cases xs with
    | nil => simp at h
    | cons x xs =>
      obtain ⟨h1, h2⟩ := ih (i + 1) xs (by simpa using h)
      cases b with
      | true =>
        simp only [flatnonzeroFrom, select, if_true, List.length_cons, h1, true_and]
        intro k hk
        cases k with
        | zero => exact ⟨0, by simp, by simp, by simp⟩
        | succ k =>
          obtain ⟨j, e1, e2, e3⟩ := h2 k (by omega)
          exact ⟨j + 1, by simp [e1]; omega, by simpa using e2, by simpa using e3⟩
      | false =>
        simp only [flatnonzeroFrom, select, Bool.false_eq_true, if_false, h1, true_and]
        intro k hk
        obtain ⟨j, e1, e2, e3⟩ := h2 k hk
        exact ⟨j + 1, by rw [e1]; congr 1; omega, by simpa using e2, by simpa using e3⟩

theorem flatnonzeroFrom_sorted (i : Nat) (m : List Bool) :
    (flatnonzeroFrom i m).Pairwise (· < ·) ∧ ∀ x ∈ flatnonzeroFrom i m, i ≤ x := by
  induction m generalizing i with
  | nil => simp [flatnonzeroFrom]
  | cons b m ih =>
    obtain ⟨h1, h2⟩ := ih (i + 1)
    cases b with
    | true =>
      simp only [flatnonzeroFrom, if_true, List.pairwise_cons, List.mem_cons]
      refine ⟨⟨fun x hx => by have := h2 x hx; omega, h1⟩, ?_⟩
      rintro x (rfl | hx)
      · exact Nat.le_refl _
      · have := h2 x hx; omega
    | false =>
      simp only [flatnonzeroFrom, Bool.false_eq_true, if_false]
      exact ⟨h1, fun x hx => by have := h2 x hx; omega⟩

/-- `feats[mask]` then `unfilter_matches`: the k-th unfiltered match denotes, in the unmasked
features, the very features the k-th masked match denoted in the masked ones; these features are
unmasked; and different masked indices give different unmasked ones. -/
theorem C29_unfilter {α β : Type} (f1 : List α) (f2 : List β) (m1 m2 : List Bool)
    (h1 : m1.length = f1.length) (h2 : m2.length = f2.length) (ms : List Match)
    (hr : ∀ p ∈ ms, p.1 < (select m1 f1).length ∧ p.2 < (select m2 f2).length) :
    (unfilterMatches ms m1 m2).length = ms.length ∧
    (∀ (k : Nat) (p : Match), ms[k]? = some p → ∃ q : Match, (unfilterMatches ms m1 m2)[k]? = some q ∧
      f1[q.1]? = (select m1 f1)[p.1]? ∧ f2[q.2]? = (select m2 f2)[p.2]? ∧
      m1[q.1]? = some true ∧ m2[q.2]? = some true) ∧
    (ms.Nodup → (unfilterMatches ms m1 m2).Nodup) := by
  refine ⟨by simp [unfilterMatches], ?_, ?_⟩
  · intro k p hp
    obtain ⟨r1, r2⟩ := hr p (List.mem_of_getElem? hp)
    obtain ⟨j1, a1, a2, a3⟩ := (flatnonzeroFrom_spec 0 m1 f1 h1).2 p.1 r1
    obtain ⟨j2, b1, b2, b3⟩ := (flatnonzeroFrom_spec 0 m2 f2 h2).2 p.2 r2
    simp only [Nat.zero_add] at a1 b1
    refine ⟨(j1, j2), ?_, a3, b3, a2, b2⟩
    unfold unfilterMatches
    rw [List.getElem?_map, hp]
    simp [flatnonzero, List.getD, a1, b1]
  · intro hnd
    unfold unfilterMatches
    rw [List.nodup_map_iff_inj_on hnd]
    have inj : ∀ (m : List Bool) (a b : Nat), a < (flatnonzero m).length →
        b < (flatnonzero m).length → (flatnonzero m).getD a 0 = (flatnonzero m).getD b 0 → a = b := by
      intro m a b ha hb e
      simp only [List.getD, List.getElem?_eq_getElem ha, List.getElem?_eq_getElem hb, Option.getD_some] at e
      have hn : (flatnonzero m).Nodup := (flatnonzeroFrom_sorted 0 m).1.imp (fun h => Nat.ne_of_lt h)
      exact (List.Nodup.getElem_inj_iff hn).1 e
    rintro ⟨a, b⟩ hab ⟨c, d⟩ hcd e
    simp only [Prod.mk.injEq] at e ⊢
    have l1 := (flatnonzeroFrom_spec 0 m1 f1 h1).1
    have l2 := (flatnonzeroFrom_spec 0 m2 f2 h2).1
    obtain ⟨q1, q2⟩ := hr _ hab
    obtain ⟨q3, q4⟩ := hr _ hcd
    unfold flatnonzero at *
    exact ⟨inj m1 a c (by omega) (by omega) e.1,
      inj m2 b d (by omega) (by omega) e.2⟩

example : let m1 := [true, false, true, true]; let f1 := ["a", "b", "c", "d"]
    let m2 := [false, true, true]; let f2 := ["x", "y", "z"]
    m1.length = f1.length ∧ m2.length = f2.length ∧
    (∀ p ∈ [(1, 0), (2, 1)], p.1 < (select m1 f1).length ∧ p.2 < (select m2 f2).length) ∧
    unfilterMatches [(1, 0), (2, 1)] m1 m2 = [(2, 1), (3, 2)] := by decide

/-! ### C27 -/

theorem select_sublist {α : Type} (m : List Bool) (xs : List α) : (select m xs).Sublist xs := by
  induction m generalizing xs with
  | nil => simp [select]
  | cons b m ih =>
    cases xs with
    | nil => simp [select]
    | cons x xs =>
      cases b
      · exact (ih xs).cons _
      · exact (ih xs).cons₂ _

theorem nonStatic_sublist (a b : ImageInfo D) (ms : List Match) : (nonStatic a b ms).Sublist ms := by
  unfold nonStatic; simp only; split
  · exact List.Sublist.refl _
  · exact List.filter_sublist

theorem notOnPoles_sublist (a b : ImageInfo D) (ms : List Match) : (notOnPoles a b ms).Sublist ms := by
  unfold notOnPoles; split
  · exact List.filter_sublist
  · exact List.Sublist.refl _

theorem notVermont_sublist (a b : ImageInfo D) (ms : List Match) : (notVermont a b ms).Sublist ms := by
  unfold notVermont; simp only
  split <;> split <;>
    first
    | exact List.Sublist.refl _
    | exact List.filter_sublist
    | exact List.filter_sublist.trans List.filter_sublist

theorem notBlackvue_sublist (a b : ImageInfo D) (ms : List Match) :
    (notBlackvue a b ms).Sublist ms := by
  unfold notBlackvue; simp only
  split <;> split <;>
    first
    | exact List.Sublist.refl _
    | exact List.filter_sublist
    | exact List.filter_sublist.trans List.filter_sublist

theorem robustCalibrated_sublist {T : Type} (p0 : List Match → T)
    (inl : List Match → T → Nat → List Bool) (rf : List Match → T → List Bool → T) (ms : List Match) :
    (robustCalibrated p0 inl rf ms).Sublist ms := by
  unfold robustCalibrated
  simp only
  repeat' split
  all_goals first | exact List.nil_sublist _ | exact select_sublist _ _

theorem robustMatch_sublist (e : Estimators) (u : Bool) (ms out : List Match)
    (h : robustMatch e u ms = some out) :
    out.Sublist ms ∧ (ms.length < 8 → out = []) := by
  unfold robustMatch at h
  split at h
  · unfold robustFundamental at h
    split at h
    · cases h; exact ⟨List.nil_sublist _, fun _ => rfl⟩
    · rename_i h8
      split at h
      · cases h
      · split at h
        · cases h; exact ⟨select_sublist _ _, fun h => absurd h h8⟩
        · cases h; exact ⟨List.nil_sublist _, fun _ => rfl⟩
  · cases h
    refine ⟨robustCalibrated_sublist _ _ _ _, ?_⟩
    intro h8
    simp [robustCalibrated, h8]

/-- Every stage only drops matches (keeps a sub-list, in order): the four ad hoc filters, each robust
estimator; and fewer than 8 matches are never enough for a robust estimator. -/
theorem C27_stages (e : Estimators) (a b : ImageInfo D) (undistorted : Bool) (ms : List Match) :
    (nonStatic a b ms).Sublist ms ∧ (notOnPoles a b ms).Sublist ms ∧
    (notVermont a b ms).Sublist ms ∧ (notBlackvue a b ms).Sublist ms ∧
    (applyAdhocFilters a b ms).Sublist ms ∧
    ∀ out, robustMatch e undistorted ms = some out →
      out.Sublist ms ∧ (ms.length < 8 → out = []) :=
  ⟨nonStatic_sublist a b ms, notOnPoles_sublist a b ms, notVermont_sublist a b ms,
    notBlackvue_sublist a b ms,
    (notBlackvue_sublist a b _).trans ((notVermont_sublist a b _).trans
      ((notOnPoles_sublist a b _).trans (nonStatic_sublist a b ms))),
    fun out h => robustMatch_sublist e undistorted ms out h⟩

/-- What the filters drop: a feature match is dropped by the pole filter iff one of its ends lies on
a panorama outside the latitude band, by the watermark filters iff one of its ends lies in the
watermark area, and the static filter drops exactly the matches that do not move — unless more than
85% of the matches would go, in which case it drops none. -/
theorem C27_filters_exact (a b : ImageInfo D) (ms : List Match) (m : Match) (hm : m ∈ ms) :
    (m ∈ notOnPoles a b ms ↔
      (a.isPano = true → -(1 / 8) < (a.pts m.1).y ∧ (a.pts m.1).y < 1 / 8) ∧
      (b.isPano = true → -(1 / 8) < (b.pts m.2).y ∧ (b.pts m.2).y < 1 / 8)) ∧
    (m ∈ notVermont a b ms ↔ (a.vermont = true → -(255 / 1000) < (a.pts m.1).y) ∧
      (b.vermont = true → -(255 / 1000) < (b.pts m.2).y)) ∧
    (m ∈ notBlackvue a b ms ↔ (a.blackvue = true → (a.pts m.1).y < 263 / 1000) ∧
      (b.blackvue = true → (b.pts m.2).y < 263 / 1000)) ∧
    (let moves : Match → Prop := fun m => (1 / 1000) ^ 2 ≤
        ((a.pts m.1).x - (b.pts m.2).x) ^ 2 + ((a.pts m.1).y - (b.pts m.2).y) ^ 2
     let n := (ms.filter (fun m => decide (moves m))).length
     (15 * ms.length ≤ 100 * n → (m ∈ nonStatic a b ms ↔ moves m)) ∧
     (100 * n < 15 * ms.length → nonStatic a b ms = ms)) := by
  refine ⟨?_, ?_, ?_, ?_⟩
  · unfold notOnPoles
    by_cases h1 : a.isPano = true <;> by_cases h2 : b.isPano = true <;> simp [h1, h2, hm]
  · unfold notVermont
    by_cases h1 : a.vermont = true <;> by_cases h2 : b.vermont = true <;> simp [h1, h2, hm, and_comm]
  · unfold notBlackvue
    by_cases h1 : a.blackvue = true <;> by_cases h2 : b.blackvue = true <;> simp [h1, h2, hm, and_comm]
  · intro moves n
    have hpos : 0 < ms.length := List.length_pos_of_mem hm
    have hmax : max ms.length 1 = ms.length := by omega
    have hD : (0 : D) < (ms.length : D) := by exact_mod_cast hpos
    have hn : nonStatic a b ms = if 1 - (n : D) / (ms.length : D) > 85 / 100 then ms
        else ms.filter (fun m => decide (moves m)) := by
      unfold nonStatic; simp only [hmax, ge_iff_le]; rfl
    have hcond : (1 - (n : D) / (ms.length : D) > 85 / 100) ↔ 100 * n < 15 * ms.length := by
      rw [gt_iff_lt, lt_sub_comm, div_lt_iff₀ hD]
      constructor
      · intro h
        have : (100 * n : D) < (15 * ms.length : D) := by linarith
        exact_mod_cast this
      · intro h
        have : (100 * n : D) < (15 * ms.length : D) := by exact_mod_cast h
        linarith
    constructor
    · intro h
      rw [hn, if_neg (by rw [hcond]; omega)]
      simp [hm]
    · intro h
      rw [hn, if_pos (hcond.2 h)]

/-- What a calibrated estimate returns: nothing, unless there are at least 8 matches and at each of
the three refinement rounds (at 4, 2 and 1 times the threshold) at least 8 matches were inliers of
the current pose; then the inliers of the final pose. -/
theorem C27_calibrated {T : Type} (p0 : List Match → T)
    (inl : List Match → T → Nat → List Bool) (rf : List Match → T → List Bool → T) (ms : List Match)
    (hne : robustCalibrated p0 inl rf ms ≠ []) :
    8 ≤ ms.length ∧ ∃ t0 t1 t2 t3,
      t0 = p0 ms ∧ 8 ≤ (inl ms t0 4).count true ∧
      t1 = rf ms t0 (inl ms t0 4) ∧ 8 ≤ (inl ms t1 2).count true ∧
      t2 = rf ms t1 (inl ms t1 2) ∧ 8 ≤ (inl ms t2 1).count true ∧
      t3 = rf ms t2 (inl ms t2 1) ∧
      ∀ (k : Nat) (m : Match), ms[k]? = some m → (inl ms t3 1)[k]? = some true →
        m ∈ robustCalibrated p0 inl rf ms := by
  have hsel : ∀ (b : List Bool) (l : List Match) (k : Nat) (m : Match), l[k]? = some m →
      b[k]? = some true → m ∈ select b l := by
    intro b l
    induction b generalizing l with
    | nil => intro k m _ h; simp at h
    | cons x bs ih =>
      intro k m h1 h2
      cases l with
      | nil => simp at h1
      | cons y ys =>
        cases k with
        | zero =>
          simp only [List.getElem?_cons_zero, Option.some.injEq] at h1 h2
          subst h1; subst h2; simp [select]
        | succ k =>
          simp only [List.getElem?_cons_succ] at h1 h2
          have := ih ys k m h1 h2
          cases x <;> simp [select, this]
  unfold robustCalibrated at hne ⊢
  simp only at hne ⊢
  by_cases h8 : ms.length < 8
  · simp [h8] at hne
  by_cases c1 : (inl ms (p0 ms) 4).count true < 8
  · simp [h8, c1] at hne
  by_cases c2 : (inl ms (rf ms (p0 ms) (inl ms (p0 ms) 4)) 2).count true < 8
  · simp [h8, c1, c2] at hne
  set t2 := rf ms (rf ms (p0 ms) (inl ms (p0 ms) 4))
    (inl ms (rf ms (p0 ms) (inl ms (p0 ms) 4)) 2) with ht2
  by_cases c3 : (inl ms t2 1).count true < 8
  · simp [h8, c1, c2, c3] at hne
  refine ⟨by omega, _, _, t2, _, rfl, by omega, rfl, by omega, ht2, by omega, rfl, ?_⟩
  intro k m h1 h2
  simp only [h8, c1, c2, c3, if_false]
  exact hsel _ _ k m h1 h2

/-- The result of matching a pair is empty unless at least `robust_matching_min_match` matches
survive before and after robust estimation; otherwise it is what the robust estimator keeps of the
descriptor matches (after the ad hoc filters if these are enabled), re-indexed by the masks. -/
theorem C27_pair (e : Estimators) (a b : ImageInfo D) (useFilters undistorted : Bool) (minMatch : Int)
    (masks : Option (List Bool × List Bool)) (raw out : List Match)
    (h : matchPair e a b useFilters undistorted minMatch masks raw = some out) :
    out = [] ∨
    (minMatch ≤ out.length ∧
      ∃ ms kept, (useFilters = true → ms = applyAdhocFilters a b raw) ∧
        (useFilters = false → ms = raw) ∧ ms.Sublist raw ∧ minMatch ≤ ms.length ∧
        robustMatch e undistorted ms = some kept ∧ kept.Sublist ms ∧
        out = (match masks with
          | none => kept
          | some (m1, m2) => unfilterMatches kept m1 m2)) := by
  have hsub : (if useFilters = true then applyAdhocFilters a b raw else raw).Sublist raw := by
    split
    · exact (C27_stages e a b undistorted raw).2.2.2.2.1
    · exact List.Sublist.refl _
  have hon : useFilters = true → (if useFilters = true then applyAdhocFilters a b raw else raw) =
      applyAdhocFilters a b raw := fun h => by simp [h]
  have hoff : useFilters = false → (if useFilters = true then applyAdhocFilters a b raw else raw) =
      raw := fun h => by simp [h]
  unfold matchPair at h
  simp only at h
  generalize (if useFilters = true then applyAdhocFilters a b raw else raw) = ms0 at h hsub hon hoff
  split at h
  · cases h; exact Or.inl rfl
  · rename_i hlen
    split at h
    · cases h
    · rename_i rm hrm
      rcases masks with _ | ⟨m1, m2⟩
      all_goals
        simp only at h
        split at h
        · cases h; exact Or.inl rfl
        · rename_i hlen2
          simp only [Option.some.injEq] at h
          right
          exact ⟨by rw [← h]; omega, ms0, rm, hon, hoff, hsub, by omega, hrm,
            (robustMatch_sublist e undistorted _ rm hrm).1, h.symm⟩

/-- Ten matches, one static, one rejected by the estimator; eight are required. -/
example : let e : Estimators := ⟨Unit, fun _ => ⟨some ((List.range 9).map (fun i => decide (i ≠ 3))), true⟩,
      fun _ => (), fun _ _ _ => [], fun _ _ _ => ()⟩
    let a : ImageInfo ℚ := ⟨fun i => ⟨i, 0⟩, false, false, false⟩
    let b : ImageInfo ℚ := ⟨fun i => ⟨2 * i, 0⟩, false, false, false⟩
    matchPair e a b true true 8 none ((List.range 10).map (fun i => (i, i))) =
      some [(1, 1), (2, 2), (3, 3), (5, 5), (6, 6), (7, 7), (8, 8), (9, 9)] := by
  decide +kernel

/-! ### C28 -/

section Files
variable {Id : Type} [DecidableEq Id]

/-- Contents of a file table at (image, other image). -/
def entry (f : Files Id) (im1 im2 : Id) : Option (List Match) :=
  (f.get? im1).bind (fun d => d.get? im2)

theorem collect_spec (refs : List Id) (pairs : List ((Id × Id) × List Match)) (acc : Files Id)
    (hp : ∀ e ∈ pairs, e.1.1 ∈ refs) (hnd : (pairs.map Prod.fst).Nodup) :
    ∃ per, collect refs pairs acc = some per ∧ per.keys.Nodup = (per.keys.Nodup) ∧
      (∀ im, (per.get? im).isSome ↔ (acc.get? im).isSome ∨ ∃ e ∈ pairs, e.1.1 = im) ∧
      (∀ e ∈ pairs, entry per e.1.1 e.1.2 = some e.2) ∧
      (∀ im1 im2, (im1, im2) ∉ pairs.map Prod.fst → entry per im1 im2 = entry acc im1 im2) := by
  induction pairs generalizing acc with
  | nil => exact ⟨acc, rfl, rfl, by simp, by simp, by simp⟩
  | cons e rest ih =>
    obtain ⟨⟨im1, im2⟩, m⟩ := e
    have h1 : im1 ∈ refs := hp _ List.mem_cons_self
    simp only [List.map_cons, List.nodup_cons] at hnd
    obtain ⟨per, p1, _, p2, p3, p4⟩ := ih (acc.set im1 (Dict.set ((acc.get? im1).getD []) im2 m))
      (fun e he => hp e (List.mem_cons_of_mem _ he)) hnd.2
    have hent : ∀ a b, entry (acc.set im1 (Dict.set ((acc.get? im1).getD []) im2 m)) a b =
        if a = im1 ∧ b = im2 then some m else entry acc a b := by
      intro a b
      unfold entry
      rw [Dict.get?_set]
      by_cases ha : im1 = a
      · subst ha
        simp only [if_true, Option.bind_some, Dict.get?_set, true_and]
        by_cases hb : im2 = b
        · simp [hb]
        · have hb' : ¬ b = im2 := fun x => hb x.symm
          simp only [hb, if_false, hb']
          cases acc.get? im1 <;> simp
      · have ha' : ¬ a = im1 := fun x => ha x.symm
        simp [ha, ha']
    refine ⟨per, ?_, rfl, ?_, ?_, ?_⟩
    · simp only [collect, h1, if_true]; exact p1
    · intro im
      rw [p2, Dict.get?_set]
      by_cases h : im1 = im
      · simp [h]
      · simp [h]
    · intro e he
      rcases List.mem_cons.1 he with rfl | he
      · rw [p4 _ _ hnd.1, hent]; simp
      · exact p3 e he
    · intro a b hab
      simp only [List.map_cons, List.mem_cons, not_or] at hab
      rw [p4 a b hab.2, hent, if_neg]
      rintro ⟨rfl, rfl⟩
      exact hab.1 rfl

theorem get?_foldl_set (l f : Files Id) (im : Id) (hnd : (Dict.keys l).Nodup) :
    (l.foldl (fun (f : Files Id) e => Dict.set f e.1 e.2) f).get? im =
      match l.get? im with
      | some d => some d
      | none => f.get? im := by
  induction l generalizing f with
  | nil => rfl
  | cons e l ih =>
    simp only [Dict.keys_cons, List.nodup_cons] at hnd
    rw [List.foldl_cons, ih _ hnd.2, Dict.get?_set]
    obtain ⟨a, d⟩ := e
    by_cases h : a = im
    · subst h
      have : Dict.get? l a = none := (Dict.get?_eq_none_iff _ _).2 hnd.1
      simp [this, Dict.get?]
    · simp [Dict.get?, h]

theorem collect_wf (refs : List Id) (pairs : List ((Id × Id) × List Match)) (acc per : Files Id)
    (h : collect refs pairs acc = some per) (hw : acc.Wf) : per.Wf := by
  induction pairs generalizing acc with
  | nil => simp only [collect, Option.some.injEq] at h; subst h; exact hw
  | cons e rest ih =>
    obtain ⟨⟨im1, im2⟩, m⟩ := e
    simp only [collect] at h
    split at h
    · exact ih _ h (Dict.wf_set hw _ _)
    · split at h
      · exact ih _ h (Dict.wf_set hw _ _)
      · cases h

/-- Saving then finding. `pairs` is the dictionary of matched pairs; as returned by the pair
selection (C21, C23) each pair starts with a reference image and no pair occurs in both directions.
`files` are the match files already there, all of them of reference images (they are overwritten).

Then saving succeeds; the matches of a pair are found as (feature of the first argument, feature of
the second) in both directions, and two images that were not matched give no matches. -/
theorem C28_find_matches (files : Files Id) (refs : List Id)
    (pairs : List ((Id × Id) × List Match)) (hnd : (pairs.map Prod.fst).Nodup)
    (hp : ∀ e ∈ pairs, e.1.1 ∈ refs)
    (hdir : ∀ a b, (a, b) ∈ pairs.map Prod.fst → (b, a) ∉ pairs.map Prod.fst)
    (hold : ∀ im, (files.get? im).isSome → im ∈ refs) :
    ∃ files', saveMatches files refs pairs = some files' ∧
      (∀ im1 im2 m, ((im1, im2), m) ∈ pairs →
        findMatches files' im1 im2 = m ∧ findMatches files' im2 im1 = m.map Prod.swap) ∧
      (∀ im1 im2, (im1, im2) ∉ pairs.map Prod.fst → (im2, im1) ∉ pairs.map Prod.fst →
        findMatches files' im1 im2 = []) := by
  set init : Files Id := refs.foldl (fun (d : Files Id) im => Dict.set d im []) [] with hinit
  have init_spec : ∀ (rs : List Id) (d : Files Id), d.Wf →
      (rs.foldl (fun (d : Files Id) im => Dict.set d im []) d).Wf ∧ ∀ im,
      (rs.foldl (fun (d : Files Id) im => Dict.set d im []) d).get? im =
        if im ∈ rs then some [] else d.get? im := by
    intro rs
    induction rs with
    | nil => intro d hw; exact ⟨hw, by simp⟩
    | cons r rs ih =>
      intro d hw
      obtain ⟨w, g⟩ := ih (Dict.set d r []) (Dict.wf_set hw _ _)
      refine ⟨w, fun im => ?_⟩
      rw [List.foldl_cons, g, Dict.get?_set]
      by_cases h1 : im ∈ rs
      · simp [h1]
      · by_cases h2 : r = im
        · simp [h2, h1]
        · have : ¬ im = r := fun x => h2 x.symm
          simp [h1, h2, this]
  obtain ⟨iw, ig⟩ := init_spec refs [] (by simp)
  obtain ⟨per, c1, -, c2, c3, c4⟩ := collect_spec refs pairs init hp hnd
  have pw : per.Wf := collect_wf refs pairs init per c1 iw
  have hper : ∀ im, (per.get? im).isSome ↔ im ∈ refs := by
    intro im
    rw [c2, ig]
    by_cases h : im ∈ refs
    · simp [h]
    · simp only [h, if_false, Dict.get?_nil, Option.isSome_none, Bool.false_eq_true, false_or, iff_false]
      rintro ⟨e, he, rfl⟩
      exact h (hp e he)
  have hent0 : ∀ a b, entry init a b = none := by
    intro a b
    unfold entry
    rw [ig]
    by_cases h : a ∈ refs <;> simp [h]
  refine ⟨per.foldl (fun (f : Files Id) e => Dict.set f e.1 e.2) files, ?_, ?_, ?_⟩
  · unfold saveMatches; rw [← hinit, c1]
  all_goals
    set files' := per.foldl (fun (f : Files Id) e => Dict.set f e.1 e.2) files with hf'
    have hget : ∀ im, files'.get? im = per.get? im := by
      intro im
      rw [hf', get?_foldl_set per files im pw]
      cases hg : per.get? im with
      | some d => rfl
      | none =>
        simp only
        cases hfl : files.get? im with
        | none => rfl
        | some d =>
          have := (hper im).2 (hold im (by simp [hfl]))
          rw [hg] at this; cases this
    have hentry : ∀ a b, entry files' a b = entry per a b := by
      intro a b; unfold entry; rw [hget]
    have hrev : ∀ a b, findReversed files' a b =
        match entry per b a with
        | none => []
        | some m => m.map Prod.swap := by
      intro a b
      rw [← hentry]
      unfold findReversed entry
      cases files'.get? b with
      | none => rfl
      | some f =>
        simp only [Option.bind_some]
        cases f.get? a with
        | none => rfl
        | some m =>
          simp only
          split
          · rfl
          · rename_i h0
            have : m = [] := by simpa using h0
            simp [this]
    have hfind : ∀ a b, findMatches files' a b =
        match entry per a b with
        | some m => m
        | none => findReversed files' a b := by
      intro a b
      rw [← hentry]
      unfold findMatches entry
      cases files'.get? a with
      | none => rfl
      | some f =>
        simp only [Option.bind_some]
        cases f.get? b <;> rfl
  · intro im1 im2 m hm
    have h1 := c3 _ hm
    simp only at h1
    have hk : (im1, im2) ∈ pairs.map Prod.fst := List.mem_map.2 ⟨_, hm, rfl⟩
    have h2 : entry per im2 im1 = none := by rw [c4 _ _ (hdir _ _ hk), hent0]
    constructor
    · rw [hfind, h1]
    · rw [hfind, h2]; simp only; rw [hrev, h1]
  · intro im1 im2 h1 h2
    rw [hfind, c4 _ _ h1, hent0]; simp only
    rw [hrev, c4 _ _ h2, hent0]

/-- The hypothesis that pairs start with a reference image is needed: `save_matches` stores a pair
whose only reference image is the second one without swapping the columns, and the features are then
attributed to the wrong images. -/
theorem C28_unswapped :
    ∃ files', saveMatches ([] : Files Nat) [2] [((1, 2), [(10, 20)])] = some files' ∧
      findMatches files' 1 2 = [(20, 10)] ∧ findMatches files' 2 1 = [(10, 20)] :=
  ⟨_, rfl, by decide, by decide⟩

example : let pairs : List ((Nat × Nat) × List Match) := [((1, 2), [(10, 20), (11, 21)]), ((3, 1), [])]
    (pairs.map Prod.fst).Nodup ∧ (∀ e ∈ pairs, e.1.1 ∈ [1, 2, 3]) ∧
    (∀ p ∈ pairs.map Prod.fst, (p.2, p.1) ∉ pairs.map Prod.fst) := by decide

end Files
end Verif.Matching
