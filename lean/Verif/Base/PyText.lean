import Verif.Base.Text

/-!
# Python string methods on lists of characters

`str.strip`, `str.split` without separator, `str.upper` (ASCII letters only), `int(str)` (ASCII
digits, no underscores).
-/
namespace Verif.PyText
open Verif.Text

/-- `c.isspace()`: the white space of `str.split()` and `str.strip()`. -/
def pySpace (c : Char) : Bool :=
  let n := c.toNat
  (9 ≤ n && n ≤ 13) || (28 ≤ n && n ≤ 32) || n = 133 || n = 160 || n = 5760 ||
    (8192 ≤ n && n ≤ 8202) || n = 8232 || n = 8233 || n = 8239 || n = 8287 || n = 12288

/-- `s.lstrip()`. -/
def lstrip (cs : List Char) : List Char := cs.dropWhile pySpace

/-- `s.rstrip()`. -/
def rstrip (cs : List Char) : List Char := (cs.reverse.dropWhile pySpace).reverse

/-- `s.strip()`. -/
def strip (cs : List Char) : List Char := rstrip (lstrip cs)

/-- `s.split(None, n)`: at most `n` words split off, then the rest. Python keeps white space at the end of the
rest, here it is dropped too: the only caller splits the rest into words (io.py:899). -/
def splitN : Nat → List Char → List (List Char)
  | 0, cs => if strip cs = [] then [] else [strip cs]
  | n + 1, cs =>
    let s := lstrip cs
    if s = [] then [] else s.takeWhile (fun c => !pySpace c) :: splitN n (s.dropWhile (fun c => !pySpace c))

/-- `s.split()`: a text has at most as many words as characters. -/
def words (cs : List Char) : List (List Char) := splitN cs.length cs

/-- `s.upper()` on ASCII letters. -/
def upper (cs : List Char) : List Char := cs.map Char.toUpper

/-- A non-empty string of digits as a number. -/
def pyNat (ds : List Char) : Option Nat :=
  if ds ≠ [] ∧ ds.all isDigit then some (natOf ds) else none

/-- `int(s)`. -/
def pyInt (cs : List Char) : Option Int :=
  match strip cs with
  | '-' :: ds => (pyNat ds).map (fun n : Nat => -(n : Int))
  | '+' :: ds => (pyNat ds).map (fun n : Nat => (n : Int))
  | ds => (pyNat ds).map (fun n : Nat => (n : Int))

theorem lstrip_append {sp w : List Char} (hs : ∀ c ∈ sp, pySpace c = true)
    (hw : ∀ c, w.head? = some c → pySpace c = false) : lstrip (sp ++ w) = w := by
  unfold lstrip
  rw [List.dropWhile_append_of_pos hs]
  cases w with
  | nil => rfl
  | cons c w => simp [hw c rfl]

theorem takeWhile_word {w rest : List Char} (hw : ∀ c ∈ w, pySpace c = false)
    (hr : ∀ c, rest.head? = some c → pySpace c = true) :
    (w ++ rest).takeWhile (fun c => !pySpace c) = w ∧
      (w ++ rest).dropWhile (fun c => !pySpace c) = rest := by
  induction w with
  | nil =>
    cases rest with
    | nil => simp
    | cons c r => simp [hr c rfl]
  | cons c w ih =>
    have := ih (fun d hd => hw d (by simp [hd]))
    simp [hw c (by simp), this.1, this.2]

/-- Splitting off one word. -/
theorem splitN_word {n : Nat} {sp w rest : List Char} (hs : ∀ c ∈ sp, pySpace c = true) (hne : w ≠ [])
    (hw : ∀ c ∈ w, pySpace c = false) (hr : ∀ c, rest.head? = some c → pySpace c = true) :
    splitN (n + 1) (sp ++ (w ++ rest)) = w :: splitN n rest := by
  have h1 : lstrip (sp ++ (w ++ rest)) = w ++ rest := by
    refine lstrip_append hs ?_
    cases w with
    | nil => exact absurd rfl hne
    | cons c w => intro d hd; simp at hd; subst hd; exact hw _ (by simp)
  have h2 := takeWhile_word hw hr
  simp only [splitN, h1, h2.1, h2.2]
  rw [if_neg]
  cases w with
  | nil => exact absurd rfl hne
  | cons c w => simp

theorem dropWhile_spaces {sp : List Char} (hs : ∀ c ∈ sp, pySpace c = true) :
    sp.dropWhile pySpace = [] := by
  induction sp with
  | nil => rfl
  | cons c sp ih => simp [hs c (by simp), ih (fun d hd => hs d (by simp [hd]))]

/-- Surrounding space is removed. -/
theorem strip_surround {sp w tl : List Char} (hs : ∀ c ∈ sp, pySpace c = true)
    (ht : ∀ c ∈ tl, pySpace c = true)
    (hh : ∀ c, w.head? = some c → pySpace c = false)
    (hl : ∀ c, w.getLast? = some c → pySpace c = false) :
    strip (sp ++ (w ++ tl)) = w := by
  cases w with
  | nil =>
    have h0 : lstrip (sp ++ ([] ++ tl)) = [] := by
      refine dropWhile_spaces ?_
      intro c hc
      simp at hc
      exact hc.elim (hs c) (ht c)
    unfold strip
    rw [h0]; rfl
  | cons c w =>
    have h1 : lstrip (sp ++ ((c :: w) ++ tl)) = (c :: w) ++ tl := by
      refine lstrip_append hs ?_
      intro d hd; exact hh d (by simpa using hd)
    unfold strip
    rw [h1]
    unfold rstrip
    rw [List.reverse_append, List.dropWhile_append_of_pos (by simpa using ht)]
    have h2 : ((c :: w).reverse).dropWhile pySpace = (c :: w).reverse := by
      generalize hv : (c :: w).reverse = v
      cases v with
      | nil => rfl
      | cons d v =>
        have : pySpace d = false := by
          refine hl d ?_
          rw [← List.reverse_reverse (c :: w), hv]
          simp
        simp [this]
    rw [h2, List.reverse_reverse]

theorem splitN_nil {n : Nat} {sp : List Char} (hs : ∀ c ∈ sp, pySpace c = true) : splitN n sp = [] := by
  have h1 : lstrip sp = [] := dropWhile_spaces hs
  cases n with
  | zero => simp [splitN, strip, h1, rstrip]
  | succ n => simp [splitN, h1]

theorem splitN_rest {sp w tl : List Char} (hs : ∀ c ∈ sp, pySpace c = true)
    (ht : ∀ c ∈ tl, pySpace c = true) (hne : w ≠ [])
    (hh : ∀ c, w.head? = some c → pySpace c = false)
    (hl : ∀ c, w.getLast? = some c → pySpace c = false) :
    splitN 0 (sp ++ (w ++ tl)) = [w] := by
  simp [splitN, strip_surround hs ht hh hl, hne]

theorem digit_props {d : Nat} (h : d < 10) :
    pySpace (digitChar d) = false ∧ (digitChar d).toUpper = digitChar d ∧ digitChar d ≠ '-' ∧
      digitChar d ≠ '+' ∧ isDigit (digitChar d) = true ∧ digitChar d ≠ 'N' ∧ digitChar d ≠ 'S' ∧
      digitChar d ≠ ':' := by
  have : d = 0 ∨ d = 1 ∨ d = 2 ∨ d = 3 ∨ d = 4 ∨ d = 5 ∨ d = 6 ∨ d = 7 ∨ d = 8 ∨ d = 9 := by omega
  rcases this with rfl | rfl | rfl | rfl | rfl | rfl | rfl | rfl | rfl | rfl <;> decide

theorem fmtNat_chars (n : Nat) : ∀ c ∈ fmtNat n, pySpace c = false ∧ c.toUpper = c ∧ c ≠ '-' ∧
    c ≠ '+' ∧ isDigit c = true ∧ c ≠ 'N' ∧ c ≠ 'S' ∧ c ≠ ':' := by
  intro c hc
  obtain ⟨d, hd, rfl⟩ := (fmtNat_spec n).2.2 c hc
  exact digit_props hd

theorem upper_fmtNat (n : Nat) : upper (fmtNat n) = fmtNat n := by
  unfold upper
  conv => rhs; rw [← List.map_id (fmtNat n)]
  exact List.map_congr_left fun c hc => (fmtNat_chars n c hc).2.1

/-- `int(str(n)) == n`, also with white space around. -/
theorem pyInt_fmtNat (n : Nat) {sp tl : List Char} (hs : ∀ c ∈ sp, pySpace c = true)
    (ht : ∀ c ∈ tl, pySpace c = true) : pyInt (sp ++ (fmtNat n ++ tl)) = some (n : Int) := by
  have hall := fmtNat_chars n
  obtain ⟨h1, h2, -⟩ := fmtNat_spec n
  have hst : strip (sp ++ (fmtNat n ++ tl)) = fmtNat n :=
    strip_surround hs ht (fun c hc => (hall c (List.mem_of_head? hc)).1)
      (fun c hc => (hall c (List.mem_of_getLast? hc)).1)
  unfold pyInt
  rw [hst]
  have hd : (fmtNat n).all isDigit = true := List.all_eq_true.2 fun c hc => (hall c hc).2.2.2.2.1
  cases hf : fmtNat n with
  | nil => exact absurd hf h2
  | cons c cs =>
    have hc := hall c (by rw [hf]; simp)
    split
    · rename_i heq; cases heq; exact absurd rfl hc.2.2.1
    · rename_i heq; cases heq; exact absurd rfl hc.2.2.2.1
    · rw [← hf, pyNat, if_pos ⟨h2, hd⟩, h1]; rfl

end Verif.PyText
