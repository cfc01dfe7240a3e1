/-!
# Text: separators and decimal integers

`segs` is repeated `std::getline(stream, s, sep)`. `fmtInt` is `ostream << int`, `stoi` and
`atoi` are the C++ library functions (integers are unbounded here).
-/
set_option linter.unusedSectionVars false
namespace Verif.Text

/-- All pieces between separators (always at least one piece). -/
def splitAll (sep : Char) : List Char → List (List Char)
  | [] => [[]]
  | c :: cs =>
    if c = sep then [] :: splitAll sep cs
    else
      match splitAll sep cs with
      | [] => [[c]]
      | s :: ss => (c :: s) :: ss

/-- Repeated `std::getline(stream, s, sep)`: a final empty piece is not delivered. -/
def segs (sep : Char) (cs : List Char) : List (List Char) :=
  let l := splitAll sep cs
  if l.getLast? = some [] then l.dropLast else l

/-- Fields joined by `sep`, without a final separator. -/
def joinSep (sep : Char) : List (List Char) → List Char
  | [] => []
  | [f] => f
  | f :: fs => f ++ sep :: joinSep sep fs

/-- Every line followed by `sep`. -/
def unlines (sep : Char) : List (List Char) → List Char
  | [] => []
  | l :: ls => l ++ sep :: unlines sep ls

theorem splitAll_ne_nil (sep : Char) (cs : List Char) : splitAll sep cs ≠ [] := by
  induction cs with
  | nil => simp [splitAll]
  | cons c cs ih =>
    unfold splitAll
    split
    · simp
    · split <;> simp

theorem splitAll_plain {sep : Char} {l : List Char} (h : sep ∉ l) : splitAll sep l = [l] := by
  induction l with
  | nil => rfl
  | cons c cs ih =>
    simp only [List.mem_cons, not_or] at h
    simp [splitAll, Ne.symm h.1, ih h.2]

theorem splitAll_append {sep : Char} {l : List Char} (h : sep ∉ l) (r : List Char) :
    splitAll sep (l ++ sep :: r) = l :: splitAll sep r := by
  induction l with
  | nil => simp [splitAll]
  | cons c cs ih =>
    simp only [List.mem_cons, not_or] at h
    simp [splitAll, Ne.symm h.1, ih h.2]

theorem splitAll_unlines {sep : Char} {ls : List (List Char)} (h : ∀ l ∈ ls, sep ∉ l) :
    splitAll sep (unlines sep ls) = ls ++ [[]] := by
  induction ls with
  | nil => rfl
  | cons l ls ih =>
    rw [unlines, splitAll_append (h l (by simp)), ih (fun a ha => h a (List.mem_cons_of_mem _ ha))]
    rfl

/-- Reading back terminated lines. -/
theorem segs_unlines {sep : Char} {ls : List (List Char)} (h : ∀ l ∈ ls, sep ∉ l) :
    segs sep (unlines sep ls) = ls := by
  simp [segs, splitAll_unlines h]

theorem splitAll_joinSep {sep : Char} {fs : List (List Char)} (hne : fs ≠ [])
    (h : ∀ l ∈ fs, sep ∉ l) : splitAll sep (joinSep sep fs) = fs := by
  induction fs with
  | nil => exact absurd rfl hne
  | cons f fs ih =>
    cases fs with
    | nil => exact splitAll_plain (h f (by simp))
    | cons g gs =>
      rw [joinSep, splitAll_append (h f (by simp)),
        ih (by simp) (fun a ha => h a (List.mem_cons_of_mem _ ha))]
      simp

/-- Reading back joined fields whose last one is not empty. -/
theorem segs_joinSep {sep : Char} {fs : List (List Char)} (hne : fs ≠ [])
    (h : ∀ l ∈ fs, sep ∉ l) (hlast : fs.getLast? ≠ some []) :
    segs sep (joinSep sep fs) = fs := by
  simp [segs, splitAll_joinSep hne h, hlast]

theorem not_mem_joinSep {sep c : Char} {fs : List (List Char)} (hc : c ≠ sep)
    (h : ∀ l ∈ fs, c ∉ l) : c ∉ joinSep sep fs := by
  induction fs with
  | nil => simp [joinSep]
  | cons f fs ih =>
    cases fs with
    | nil => exact h f (by simp)
    | cons g gs =>
      rw [joinSep]
      · intro hm
        rcases List.mem_append.1 hm with hm | hm
        · exact h f (by simp) hm
        · rcases List.mem_cons.1 hm with hm | hm
          · exact hc hm
          · exact ih (fun a ha => h a (List.mem_cons_of_mem _ ha)) hm
      · simp

/-! ### Decimal integers -/

/-- The digit character of `n < 10`. -/
def digitChar (n : Nat) : Char := Char.ofNat (48 + n)

/-- Value of a digit character. -/
def digitVal (c : Char) : Nat := c.toNat - 48

/-- Is it one of `0`..`9`? -/
def isDigit (c : Char) : Bool := 48 ≤ c.toNat && c.toNat ≤ 57

/-- C locale white space. -/
def isSpace (c : Char) : Bool := c = ' ' || (9 ≤ c.toNat && c.toNat ≤ 13)

/-- Decimal digits of `n`, most significant first (`fuel ≥ n` suffices). -/
def fmtAux : Nat → Nat → List Char
  | 0, n => [digitChar n]
  | f + 1, n => if n < 10 then [digitChar n] else fmtAux f (n / 10) ++ [digitChar (n % 10)]

/-- `ostream << n` for a natural number. -/
def fmtNat (n : Nat) : List Char := fmtAux n n

/-- `ostream << i` for an integer. -/
def fmtInt : Int → List Char
  | .ofNat n => fmtNat n
  | .negSucc n => '-' :: fmtNat (n + 1)

/-- Value of a digit string. -/
def natOf (ds : List Char) : Nat := ds.foldl (fun a c => 10 * a + digitVal c) 0

/-- The number at the start of `cs` (after white space and sign), if there is a digit. -/
def stoi (cs : List Char) : Option Int :=
  match cs.dropWhile isSpace with
  | '-' :: r =>
    let ds := r.takeWhile isDigit
    if ds = [] then none else some (-(natOf ds : Int))
  | '+' :: r =>
    let ds := r.takeWhile isDigit
    if ds = [] then none else some (natOf ds : Int)
  | r =>
    let ds := r.takeWhile isDigit
    if ds = [] then none else some (natOf ds : Int)

/-- `std::atoi`: 0 when there is no number. -/
def atoi (cs : List Char) : Int := (stoi cs).getD 0

theorem digitChar_props {n : Nat} (h : n < 10) :
    digitVal (digitChar n) = n ∧ isDigit (digitChar n) = true ∧ isSpace (digitChar n) = false ∧
      digitChar n ≠ '-' ∧ digitChar n ≠ '+' ∧ digitChar n ≠ '\t' ∧ digitChar n ≠ '\n' := by
  have : n = 0 ∨ n = 1 ∨ n = 2 ∨ n = 3 ∨ n = 4 ∨ n = 5 ∨ n = 6 ∨ n = 7 ∨ n = 8 ∨ n = 9 := by omega
  rcases this with rfl | rfl | rfl | rfl | rfl | rfl | rfl | rfl | rfl | rfl <;> decide

theorem fmtAux_spec (f n : Nat) (h : n ≤ f) :
    natOf (fmtAux f n) = n ∧ fmtAux f n ≠ [] ∧ ∀ c ∈ fmtAux f n, ∃ d, d < 10 ∧ c = digitChar d := by
  induction f generalizing n with
  | zero =>
    have : n = 0 := by omega
    subst this
    exact ⟨rfl, by simp [fmtAux], by intro c hc; simp [fmtAux] at hc; exact ⟨0, by omega, hc⟩⟩
  | succ f ih =>
    unfold fmtAux
    split
    · rename_i hn
      refine ⟨?_, by simp, by intro c hc; simp at hc; exact ⟨n, hn, hc⟩⟩
      simp [natOf, (digitChar_props hn).1]
    · rename_i hn
      obtain ⟨h1, h2, h3⟩ := ih (n / 10) (by omega)
      refine ⟨?_, by simp, ?_⟩
      · unfold natOf at h1 ⊢
        rw [List.foldl_append, h1]
        simp only [List.foldl_cons, List.foldl_nil]
        rw [(digitChar_props (n := n % 10) (by omega)).1]
        omega
      · intro c hc
        rcases List.mem_append.1 hc with hc | hc
        · exact h3 c hc
        · simp at hc; exact ⟨n % 10, by omega, hc⟩

theorem fmtNat_spec (n : Nat) :
    natOf (fmtNat n) = n ∧ fmtNat n ≠ [] ∧ ∀ c ∈ fmtNat n, ∃ d, d < 10 ∧ c = digitChar d :=
  fmtAux_spec n n (Nat.le_refl _)

theorem takeWhile_all {A : Type} {p : A → Bool} {l : List A} (h : ∀ x ∈ l, p x = true) :
    l.takeWhile p = l := by
  induction l with
  | nil => rfl
  | cons a l ih =>
    rw [List.takeWhile_cons_of_pos (h a (by simp)), ih (fun x hx => h x (List.mem_cons_of_mem _ hx))]

/-- Reading back a printed integer. -/
theorem stoi_fmtInt (i : Int) : stoi (fmtInt i) = some i := by
  cases i with
  | ofNat n =>
    obtain ⟨h1, h2, h3⟩ := fmtNat_spec n
    unfold fmtInt stoi
    simp only
    cases hf : fmtNat n with
    | nil => exact absurd hf h2
    | cons c cs =>
      obtain ⟨d, hd, hc⟩ := h3 c (by rw [hf]; simp)
      have hp := digitChar_props hd
      rw [← hc] at hp
      have hdw : (c :: cs).dropWhile isSpace = c :: cs := by
        rw [List.dropWhile_cons_of_neg]; simp [hp.2.2.1]
      rw [hdw]
      split
      · rename_i heq; cases heq; exact absurd rfl hp.2.2.2.1
      · rename_i heq; cases heq; exact absurd rfl hp.2.2.2.2.1
      · have : (c :: cs).takeWhile isDigit = c :: cs := by
          apply takeWhile_all
          intro x hx
          obtain ⟨e, he, rfl⟩ := h3 x (by rw [hf]; exact hx)
          exact (digitChar_props he).2.1
        rw [this, ← hf, h1]
        simp [h2]
  | negSucc n =>
    obtain ⟨h1, h2, h3⟩ := fmtNat_spec (n + 1)
    unfold fmtInt stoi
    simp only
    have hdw : ('-' :: fmtNat (n + 1)).dropWhile isSpace = '-' :: fmtNat (n + 1) := by
      rw [List.dropWhile_cons_of_neg]; decide
    rw [hdw]
    have : (fmtNat (n + 1)).takeWhile isDigit = fmtNat (n + 1) := by
      apply takeWhile_all
      intro x hx
      obtain ⟨e, he, rfl⟩ := h3 x hx
      exact (digitChar_props he).2.1
    simp only [this, h1, h2, if_false]
    congr 1

theorem fmtInt_clean (i : Int) : fmtInt i ≠ [] ∧ '\t' ∉ fmtInt i ∧ '\n' ∉ fmtInt i := by
  have key : ∀ n, '\t' ∉ fmtNat n ∧ '\n' ∉ fmtNat n := by
    intro n
    obtain ⟨_, _, h3⟩ := fmtNat_spec n
    constructor
    · intro h; obtain ⟨d, hd, hc⟩ := h3 _ h; exact (digitChar_props hd).2.2.2.2.2.1 hc.symm
    · intro h; obtain ⟨d, hd, hc⟩ := h3 _ h; exact (digitChar_props hd).2.2.2.2.2.2 hc.symm
  cases i with
  | ofNat n => exact ⟨(fmtNat_spec n).2.1, key n⟩
  | negSucc n =>
    refine ⟨by simp [fmtInt], ?_, ?_⟩
    · have := (key (n + 1)).1; simp [fmtInt, this]
    · have := (key (n + 1)).2; simp [fmtInt, this]

end Verif.Text
