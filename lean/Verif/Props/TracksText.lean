import Verif.Model.TracksText
import Verif.Lemmas.TracksManager
import Mathlib.Data.List.Forall2

/-!
# C07, C08: the text format of the tracks file
-/
set_option linter.unusedSectionVars false
set_option linter.unusedSimpArgs false
namespace Verif.TracksText
open Text TM
variable {R D : Type}

/-! ## Specification -/

/-- What survives a write/read cycle of one observation: the doubles as printed and read back,
no depth prior. -/
def reread (rnd : R → R) (o : Obs R D) : Obs R D :=
  { o with x := rnd o.x, y := rnd o.y, scale := rnd o.scale, depthPrior := none }

/-- Column `c` holds the integer `i` / the double `x`. -/
def IsInt (c : List Char) (i : Int) : Prop := stoi c = some i

/-- Meaning of one line of version `v` of the format as observation `o` of track `t` in shot `s`. -/
def Means (parseD : List Char → Option R) (zero : R) (v : Int) (line s t : List Char)
    (o : Obs R D) : Prop :=
  (v = 0 ∧ ∃ f x y r g b, segs '\t' line = [s, t, f, x, y, r, g, b] ∧
    IsInt f o.featureId ∧ parseD x = some o.x ∧ parseD y = some o.y ∧
    IsInt r o.red ∧ IsInt g o.green ∧ IsInt b o.blue ∧
    o.scale = zero ∧ o.segmentationId = -1 ∧ o.instanceId = -1 ∧ o.depthPrior = none) ∨
  (v = 1 ∧ ∃ f x y c r g b, segs '\t' line = [s, t, f, x, y, c, r, g, b] ∧
    IsInt f o.featureId ∧ parseD x = some o.x ∧ parseD y = some o.y ∧ parseD c = some o.scale ∧
    IsInt r o.red ∧ IsInt g o.green ∧ IsInt b o.blue ∧
    o.segmentationId = -1 ∧ o.instanceId = -1 ∧ o.depthPrior = none) ∨
  (v = 2 ∧ ∃ f x y c r g b i j, segs '\t' line = [s, t, f, x, y, c, r, g, b, i, j] ∧
    IsInt f o.featureId ∧ parseD x = some o.x ∧ parseD y = some o.y ∧ parseD c = some o.scale ∧
    IsInt r o.red ∧ IsInt g o.green ∧ IsInt b o.blue ∧
    IsInt i o.segmentationId ∧ IsInt j o.instanceId ∧ o.depthPrior = none)

/-- The lines of the text announce version `v` and leave the data lines `ls`:
either there is no header line and everything is version 0 data, or the first line is the header
word followed by any two characters and the version number. -/
def Announces (lines : List (List Char)) (v : Int) (ls : List (List Char)) : Prop :=
  (v = 0 ∧ ls = lines ∧ ∀ l, lines.head? = some l → ¬ header <+: l) ∨
  (∃ a b n, lines = (header ++ [a, b] ++ n) :: ls ∧ v = atoi n)

/-! ## Lemmas -/

theorem num_ok {A : Type} {o : Option A} {a : A} : num o = .ok a ↔ o = some a := by
  cases o <;> simp [num]

theorem lineV0_ok {parseD : List Char → Option R} {zero : R} {line s t : List Char} {o : Obs R D} :
    lineV0 parseD zero line = .ok (s, t, o) ↔ Means parseD zero 0 line s t o := by
  obtain ⟨ox, oy, os, orr, og, ob, of, oi, oj, od⟩ := o
  constructor
  · intro h
    unfold lineV0 at h
    split at h
    · rename_i s' t' f x y r g b hs
      left
      cases h1 : stoi f <;> cases h2 : parseD x <;> cases h3 : parseD y <;> cases h4 : stoi r <;>
        cases h5 : stoi g <;> cases h6 : stoi b <;>
        simp [num, h1, h2, h3, h4, h5, h6, bind, Except.bind, pure, Except.pure] at h
      obtain ⟨rfl, rfl, rfl, rfl, rfl, rfl, rfl, rfl, rfl, rfl, rfl, rfl⟩ := h
      exact ⟨rfl, f, x, y, r, g, b, hs, h1, h2, h3, h4, h5, h6, rfl, rfl, rfl, rfl⟩
    · cases h
  · rintro (⟨_, f, x, y, r, g, b, hs, h1, h2, h3, h4, h5, h6, h7, h8, h9, h10⟩ | ⟨h, _⟩ | ⟨h, _⟩)
    · simp only [IsInt] at *
      simp [lineV0, hs, h1, h2, h3, h4, h5, h6, h7, h8, h9, h10, num, bind, Except.bind, pure,
        Except.pure, noSemantic]
    · cases h
    · cases h

theorem lineV1_ok {parseD : List Char → Option R} {zero : R} {line s t : List Char} {o : Obs R D} :
    lineV1 parseD line = .ok (s, t, o) ↔ Means parseD zero 1 line s t o := by
  obtain ⟨ox, oy, os, orr, og, ob, of, oi, oj, od⟩ := o
  constructor
  · intro h
    unfold lineV1 at h
    split at h
    · rename_i s' t' f x y c r g b hs
      right; left
      cases h1 : stoi f <;> cases h2 : parseD x <;> cases h3 : parseD y <;> cases h7 : parseD c <;>
        cases h4 : stoi r <;>
        cases h5 : stoi g <;> cases h6 : stoi b <;>
        simp [num, h1, h2, h3, h4, h5, h6, h7, bind, Except.bind, pure, Except.pure] at h
      obtain ⟨rfl, rfl, rfl, rfl, rfl, rfl, rfl, rfl, rfl, rfl, rfl, rfl⟩ := h
      exact ⟨rfl, f, x, y, c, r, g, b, hs, h1, h2, h3, h7, h4, h5, h6, rfl, rfl, rfl⟩
    · cases h
  · rintro (⟨h, _⟩ | ⟨_, f, x, y, c, r, g, b, hs, h1, h2, h3, h7, h4, h5, h6, h8, h9, h10⟩ | ⟨h, _⟩)
    · cases h
    · simp only [IsInt] at *
      simp [lineV1, hs, h1, h2, h3, h4, h5, h6, h7, h8, h9, h10, num, bind, Except.bind, pure,
        Except.pure, noSemantic]
    · cases h

theorem lineV2_ok {parseD : List Char → Option R} {zero : R} {line s t : List Char} {o : Obs R D} :
    lineV2 parseD line = .ok (s, t, o) ↔ Means parseD zero 2 line s t o := by
  obtain ⟨ox, oy, os, orr, og, ob, of, oi, oj, od⟩ := o
  constructor
  · intro h
    unfold lineV2 at h
    split at h
    · rename_i s' t' f x y c r g b i j hs
      right; right
      cases h1 : stoi f <;> simp only [h1, num, bind, Except.bind, reduceCtorEq] at h
      cases h2 : parseD x <;> simp only [h2, num, reduceCtorEq] at h
      cases h3 : parseD y <;> simp only [h3, num, reduceCtorEq] at h
      cases h7 : parseD c <;> simp only [h7, num, reduceCtorEq] at h
      cases h4 : stoi r <;> simp only [h4, num, reduceCtorEq] at h
      cases h5 : stoi g <;> simp only [h5, num, reduceCtorEq] at h
      cases h6 : stoi b <;> simp only [h6, num, reduceCtorEq] at h
      cases h8 : stoi i <;> simp only [h8, num, reduceCtorEq] at h
      cases h9 : stoi j <;>
        simp [h9, num, pure, Except.pure] at h
      obtain ⟨rfl, rfl, rfl, rfl, rfl, rfl, rfl, rfl, rfl, rfl, rfl, rfl⟩ := h
      exact ⟨rfl, f, x, y, c, r, g, b, i, j, hs, h1, h2, h3, h7, h4, h5, h6, h8, h9, rfl⟩
    · cases h
  · rintro (⟨h, _⟩ | ⟨h, _⟩ |
      ⟨_, f, x, y, c, r, g, b, i, j, hs, h1, h2, h3, h7, h4, h5, h6, h8, h9, h10⟩)
    · cases h
    · cases h
    · simp only [IsInt] at *
      simp [lineV2, hs, h1, h2, h3, h4, h5, h6, h7, h8, h9, h10, num, bind, Except.bind, pure,
        Except.pure]

theorem readLines_ok (line : List Char → Except Err (List Char × List Char × Obs R D))
    (m m' : TM (List Char) (List Char) (Obs R D)) (ls : List (List Char)) :
    readLines line m ls = .ok m' ↔
      ∃ recs, List.Forall₂ (fun l r => line l = .ok r) ls recs ∧
        m' = recs.foldl (fun m p => m.addObservation p.1 p.2.1 p.2.2) m := by
  induction ls generalizing m with
  | nil =>
    constructor
    · intro h; cases h; exact ⟨[], .nil, rfl⟩
    · rintro ⟨recs, h, rfl⟩; cases h; rfl
  | cons l ls ih =>
    unfold readLines
    cases hl : line l with
    | error e =>
      constructor
      · intro h; cases h
      · rintro ⟨recs, h, _⟩; cases h with | cons h1 h2 => rw [hl] at h1; cases h1
    | ok r =>
      simp only [ih]
      constructor
      · rintro ⟨recs, h, rfl⟩; exact ⟨r :: recs, .cons hl h, rfl⟩
      · rintro ⟨recs, h, rfl⟩
        cases h with
        | cons h1 h2 => rw [hl] at h1; cases h1; exact ⟨_, h2, rfl⟩

theorem fileVersion_ok (lines : List (List Char)) (v : Int) (ls : List (List Char)) :
    fileVersion lines = .ok (v, ls) ↔ Announces lines v ls := by
  unfold fileVersion Announces
  cases lines with
  | nil => simp; exact fun _ => eq_comm
  | cons l lines =>
    by_cases hp : header <+: l
    · obtain ⟨rest, rfl⟩ := hp
      simp only [List.isPrefixOf_iff_prefix, List.prefix_append, if_true, List.length_append,
        Nat.add_le_add_iff_left]
      constructor
      · intro h
        split at h
        · rename_i hlen
          match rest, hlen with
          | a :: b :: n, _ =>
            rw [← List.drop_drop, List.drop_left] at h
            simp at h
            exact .inr ⟨a, b, n, by simp [h.2], h.1.symm⟩
        · cases h
      · rintro (⟨_, _, h⟩ | ⟨a, b, n, h, rfl⟩)
        · exact absurd (List.prefix_append _ _) (h _ rfl)
        · simp only [List.append_assoc, List.cons.injEq, List.append_cancel_left_eq] at h
          obtain ⟨rfl, rfl⟩ := h
          rw [← List.drop_drop, List.drop_left]
          simp
    · simp only [List.isPrefixOf_iff_prefix, hp, if_false]
      constructor
      · intro h; cases h; exact .inl ⟨rfl, rfl, by intro l' h; cases h; exact hp⟩
      · rintro (⟨rfl, rfl, _⟩ | ⟨a, b, n, h, _⟩)
        · rfl
        · cases h; exact absurd ⟨[a, b] ++ n, by simp⟩ hp

theorem run_adds (recs : List (List Char × List Char × Obs R D)) :
    TM.run (recs.map fun p => Op.add p.1 p.2.1 p.2.2) =
      recs.foldl (fun m p => m.addObservation p.1 p.2.1 p.2.2) TM.empty := by
  rw [TM.run, List.foldl_map]; rfl

/-! ## C08 -/

/-- Reading succeeds exactly when every data line is a line of the announced version, which must
be 0, 1 or 2; the result is the manager obtained by adding the lines' observations in order.
In particular nothing is ever partially accepted. -/
theorem C08_read (parseD : List Char → Option R) (zero : R) (text : List Char)
    (m : TM (List Char) (List Char) (Obs R D)) :
    fromString parseD zero text = .ok m ↔
      ∃ (v : Int) (ls : List (List Char)) (recs : List (List Char × List Char × Obs R D)),
        Announces (segs '\n' text) v ls ∧ (v = 0 ∨ v = 1 ∨ v = 2) ∧
        List.Forall₂ (fun l r => Means parseD zero v l r.1 r.2.1 r.2.2) ls recs ∧
        m = TM.run (recs.map fun p => Op.add p.1 p.2.1 p.2.2) := by
  simp only [run_adds]
  unfold fromString
  constructor
  · intro h
    split at h
    · cases h
    · rename_i v ls hv
      rw [fileVersion_ok] at hv
      split at h
      · rename_i h0; subst h0
        obtain ⟨recs, h1, rfl⟩ := (readLines_ok _ _ _ _).1 h
        exact ⟨0, ls, recs, hv, .inl rfl, h1.imp fun l r hh => lineV0_ok.1 hh, rfl⟩
      · split at h
        · rename_i h0; subst h0
          obtain ⟨recs, h1, rfl⟩ := (readLines_ok _ _ _ _).1 h
          exact ⟨1, ls, recs, hv, .inr (.inl rfl), h1.imp fun l r hh => lineV1_ok.1 hh, rfl⟩
        · split at h
          · rename_i h0; subst h0
            obtain ⟨recs, h1, rfl⟩ := (readLines_ok _ _ _ _).1 h
            exact ⟨2, ls, recs, hv, .inr (.inr rfl), h1.imp fun l r hh => lineV2_ok.1 hh, rfl⟩
          · cases h
  · rintro ⟨v, ls, recs, hv, h3, hl, rfl⟩
    rw [← fileVersion_ok] at hv
    rw [hv]
    rcases h3 with rfl | rfl | rfl
    · simp only [if_true]
      exact (readLines_ok _ _ _ _).2 ⟨recs, hl.imp fun l r hh => lineV0_ok.2 hh, rfl⟩
    · simp only [show ¬ (1 : Int) = 0 by decide, if_false, if_true]
      exact (readLines_ok _ _ _ _).2 ⟨recs, hl.imp fun l r hh => lineV1_ok.2 hh, rfl⟩
    · simp only [show ¬ (2 : Int) = 0 by decide, show ¬ (2 : Int) = 1 by decide, if_false, if_true]
      exact (readLines_ok _ _ _ _).2 ⟨recs, hl.imp fun l r hh => lineV2_ok.2 hh, rfl⟩

/-- Number of columns of each version. -/
def columns (v : Int) : Nat := if v = 0 then 8 else if v = 1 then 9 else 11

/-- A data line with a wrong number of columns makes the whole read fail. -/
theorem C08_wrong_columns (parseD : List Char → Option R) (zero : R) (text : List Char)
    (v : Int) (ls : List (List Char)) (hv : Announces (segs '\n' text) v ls)
    (l : List Char) (hl : l ∈ ls) (hc : (segs '\t' l).length ≠ columns v) :
    ∃ e, fromString (D := D) parseD zero text = .error e := by
  cases h : fromString (D := D) parseD zero text with
  | error e => exact ⟨e, rfl⟩
  | ok m =>
    obtain ⟨v', ls', recs, hv', _, hr, _⟩ := (C08_read parseD zero text m).1 h
    have : (v, ls) = (v', ls') := by
      have h1 := (fileVersion_ok _ _ _).2 hv
      have h2 := (fileVersion_ok _ _ _).2 hv'
      rw [h1] at h2; cases h2; rfl
    cases this
    exfalso
    have key : ∀ (ls : List (List Char)) (recs : List (List Char × List Char × Obs R D)),
        List.Forall₂ (fun l r => Means parseD zero v l r.1 r.2.1 r.2.2) ls recs → l ∈ ls →
        ∃ r : List Char × List Char × Obs R D, Means parseD zero v l r.1 r.2.1 r.2.2 := by
      intro ls recs h
      induction h with
      | nil => intro h; cases h
      | cons h1 h2 ih =>
        intro h
        rcases List.mem_cons.1 h with rfl | h
        · exact ⟨_, h1⟩
        · exact ih h
    obtain ⟨r, hm⟩ := key ls recs hr hl
    rcases hm with ⟨rfl, _, _, _, _, _, _, hs, _⟩ | ⟨rfl, _, _, _, _, _, _, _, hs, _⟩ |
      ⟨rfl, _, _, _, _, _, _, _, _, _, hs, _⟩ <;> rw [hs] at hc <;> exact hc rfl

/-- Any announced version other than 0, 1, 2 is rejected. -/
theorem C08_unknown_version (parseD : List Char → Option R) (zero : R) (text : List Char)
    (v : Int) (ls : List (List Char)) (hv : Announces (segs '\n' text) v ls)
    (h : v ≠ 0 ∧ v ≠ 1 ∧ v ≠ 2) :
    fromString (D := D) parseD zero text = .error .unknownVersion := by
  rw [← fileVersion_ok] at hv
  simp [fromString, hv, h.1, h.2.1, h.2.2]

/-- Every observation in the result is stated by one of the data lines. -/
theorem C08_from_lines (parseD : List Char → Option R) (zero : R) (text : List Char)
    (m : TM (List Char) (List Char) (Obs R D)) (h : fromString parseD zero text = .ok m)
    (s t : List Char) (o : Obs R D) (hg : m.getObservation s t = .ok o) :
    ∃ v ls, Announces (segs '\n' text) v ls ∧ ∃ l ∈ ls, Means parseD zero v l s t o := by
  obtain ⟨v, ls, recs, hv, _, hr, rfl⟩ := (C08_read parseD zero text m).1 h
  refine ⟨v, ls, hv, ?_⟩
  rw [getObservation_ok_iff, run_adds, look2_addMany] at hg
  simp only [TM.empty, look2, Dict.get?_nil, Option.bind_none, Option.or_none] at hg
  obtain ⟨p, hp, he⟩ := List.exists_of_findSome?_eq_some hg
  replace hp : p ∈ recs := by simpa using hp
  split at he
  · rename_i hc
    cases he
    obtain ⟨rfl, rfl⟩ := hc
    clear hg hv h
    induction hr with
    | nil => cases hp
    | cons h1 h2 ih =>
      rcases List.mem_cons.1 hp with rfl | hp
      · exact ⟨_, by simp, h1⟩
      · obtain ⟨l, hl, hm⟩ := ih hp
        exact ⟨l, List.mem_cons_of_mem _ hl, hm⟩
  · cases he

/-- Doubles printed as integers, for the examples. -/
def sampleFmt (x : Int) : List Char := fmtInt x
/-- Reader for `sampleFmt`. -/
def sampleParse (l : List Char) : Option Int := stoi l

/-- A headerless legacy file. -/
def legacyText : List Char := "im1\t0\t7\t1\t2\t10\t20\t30\nim2\t0\t8\t3\t4\t11\t21\t31\n".toList

example : (fromString (D := Unit) sampleParse 0 legacyText).toOption.map
    (fun m => m.getObservation "im1".toList "0".toList) =
      some (.ok ⟨1, 2, 0, 10, 20, 30, 7, -1, -1, none⟩) := by decide +kernel

example : (fromString (D := Unit) sampleParse 0 "im1\t0\t7\t1\t2\t10\t20\t30\nim2\t0\n".toList) =
    .error .badColumnCount := by decide +kernel

example : (fromString (D := Unit) sampleParse 0 "OPENSFM_TRACKS_VERSION_v3\n".toList) =
    .error .unknownVersion ∧ Announces (segs '\n' "OPENSFM_TRACKS_VERSION_v3\n".toList) 3 [] := by
  refine ⟨by decide +kernel, .inr ⟨'_', 'v', "3".toList, by decide +kernel, by decide +kernel⟩⟩

/-! ## C07 -/

/-- Observations written, in order. -/
def written (m : TM (List Char) (List Char) (Obs R D)) :
    List (List Char × List Char × Obs R D) :=
  m.getShotIds.flatMap fun s => ((m.perShot.get? s).getD []).map fun p => (s, p.1, p.2)

theorem outLines_eq (fmtD : R → List Char) (m : TM (List Char) (List Char) (Obs R D)) :
    outLines fmtD m = (header ++ ['_', 'v'] ++ fmtInt 2) ::
      (written m).map fun r => joinSep '\t' (fields fmtD r.1 r.2.1 r.2.2) := by
  unfold outLines written
  simp only [List.map_flatMap, currentVersion]
  congr 1
  congr 1
  funext s
  unfold getShotObservations
  cases m.perShot.get? s with
  | none => rfl
  | some d => simp

theorem mem_written {m : TM (List Char) (List Char) (Obs R D)} (h : Inv m) (s t : List Char)
    (o : Obs R D) : (s, t, o) ∈ written m ↔ look2 m.perShot s t = some o := by
  unfold written look2
  simp only [List.mem_flatMap, List.mem_map, Prod.mk.injEq]
  constructor
  · rintro ⟨s', _, ⟨t', o'⟩, hm, rfl, rfl, rfl⟩
    cases hg : m.perShot.get? s' with
    | none => simp [hg] at hm
    | some d =>
      simp only [hg, Option.getD_some] at hm
      simp [Dict.get?_of_mem (h.wfS.2 _ _ hg) hm]
  · intro hl
    cases hg : m.perShot.get? s with
    | none => simp [hg] at hl
    | some d =>
      simp only [hg, Option.bind_some] at hl
      refine ⟨s, (Dict.mem_keys_iff _ _).2 (by simp [hg]), (t, o), ?_, rfl, rfl, rfl⟩
      simpa [hg] using Dict.mem_of_get? hl

theorem header_clean : '\n' ∉ header ++ ['_', 'v'] ++ fmtInt 2 := by decide

/-- Writing and reading back gives exactly the observations of the manager, each with its
printed coordinates and without depth prior, provided the printed numbers are readable and ids
contain no tab or newline. -/
theorem C07_roundtrip (fmtD : R → List Char) (parseD : List Char → Option R) (rnd : R → R) (zero : R)
    (hparse : ∀ x, parseD (fmtD x) = some (rnd x))
    (hfmt : ∀ x, '\t' ∉ fmtD x ∧ '\n' ∉ fmtD x)
    (m : TM (List Char) (List Char) (Obs R D)) (hm : Reachable m)
    (hids : ∀ s t o, m.getObservation s t = .ok o →
      '\t' ∉ s ∧ '\n' ∉ s ∧ '\t' ∉ t ∧ '\n' ∉ t) :
    ∃ m', fromString parseD zero (asString fmtD m) = .ok m' ∧
      ∀ s t o', m'.getObservation s t = .ok o' ↔
        ∃ o, m.getObservation s t = .ok o ∧ o' = reread rnd o := by
  have hInv := inv_of_reachable hm
  have hw : ∀ r ∈ written m, '\t' ∉ r.1 ∧ '\n' ∉ r.1 ∧ '\t' ∉ r.2.1 ∧ '\n' ∉ r.2.1 := by
    rintro ⟨s, t, o⟩ hr
    exact hids s t o ((getObservation_ok_iff _ _ _ _).2 ((mem_written hInv s t o).1 hr))
  have htab : ∀ r ∈ written m, ∀ f ∈ fields fmtD r.1 r.2.1 r.2.2, '\t' ∉ f ∧ '\n' ∉ f := by
    intro r hr f hf
    have := hw r hr
    simp only [fields, List.mem_cons, List.not_mem_nil, or_false] at hf
    rcases hf with rfl | rfl | rfl | rfl | rfl | rfl | rfl | rfl | rfl | rfl | rfl
    · exact ⟨this.1, this.2.1⟩
    · exact ⟨this.2.2.1, this.2.2.2⟩
    all_goals first | exact (fmtInt_clean _).2 | exact hfmt _
  have hlines : segs '\n' (asString fmtD m) = outLines fmtD m := by
    apply segs_unlines
    rw [outLines_eq]
    intro l hl
    rcases List.mem_cons.1 hl with rfl | hl
    · exact header_clean
    · obtain ⟨r, hr, rfl⟩ := List.mem_map.1 hl
      exact not_mem_joinSep (by decide) (fun f hf => (htab r hr f hf).2)
  have hread : fromString parseD zero (asString fmtD m) =
      .ok (TM.run ((((written m).map fun r => (r.1, r.2.1, reread rnd r.2.2))).map
        fun p => Op.add p.1 p.2.1 p.2.2)) := by
    rw [C08_read]
    refine ⟨2, (written m).map fun r => joinSep '\t' (fields fmtD r.1 r.2.1 r.2.2),
      (written m).map fun r => (r.1, r.2.1, reread rnd r.2.2), ?_, .inr (.inr rfl), ?_, rfl⟩
    · rw [hlines, outLines_eq]
      exact .inr ⟨'_', 'v', fmtInt 2, rfl, by simp [atoi, stoi_fmtInt]⟩
    · rw [List.forall₂_map_left_iff, List.forall₂_map_right_iff, List.forall₂_same]
      intro r hr
      right; right
      refine ⟨rfl, fmtInt r.2.2.featureId, fmtD r.2.2.x, fmtD r.2.2.y, fmtD r.2.2.scale,
        fmtInt r.2.2.red, fmtInt r.2.2.green, fmtInt r.2.2.blue, fmtInt r.2.2.segmentationId,
        fmtInt r.2.2.instanceId, ?_, stoi_fmtInt _, hparse _, hparse _, hparse _, stoi_fmtInt _,
        stoi_fmtInt _, stoi_fmtInt _, stoi_fmtInt _, stoi_fmtInt _, rfl⟩
      apply segs_joinSep (by simp [fields]) (fun f hf => (htab r hr f hf).1)
      simp [fields, (fmtInt_clean _).1]
  refine ⟨_, hread, ?_⟩
  intro s t o'
  rw [getObservation_ok_iff, run_adds, look2_addMany]
  simp only [TM.empty, look2, Dict.get?_nil, Option.bind_none, Option.or_none]
  have hgo : ∀ o, m.getObservation s t = .ok o ↔ (s, t, o) ∈ written m := by
    intro o; rw [getObservation_ok_iff, mem_written hInv]
  simp only [hgo]
  constructor
  · intro h
    obtain ⟨p, hp, he⟩ := List.exists_of_findSome?_eq_some h
    rw [List.mem_reverse, List.mem_map] at hp
    obtain ⟨r, hr, rfl⟩ := hp
    split at he
    · rename_i hc
      obtain ⟨rfl, rfl⟩ := hc
      cases he
      exact ⟨r.2.2, hr, rfl⟩
    · cases he
  · rintro ⟨o, ho, rfl⟩
    cases hfs : (List.findSome? (fun p : List Char × List Char × Obs R D =>
        if p.1 = s ∧ p.2.1 = t then some p.2.2 else none)
        ((written m).map fun r => (r.1, r.2.1, reread rnd r.2.2)).reverse) with
    | none =>
      rw [List.findSome?_eq_none_iff] at hfs
      have := hfs (s, t, reread rnd o) (by
        rw [List.mem_reverse, List.mem_map]; exact ⟨_, ho, rfl⟩)
      simp at this
    | some o2 =>
      obtain ⟨p, hp, he⟩ := List.exists_of_findSome?_eq_some hfs
      rw [List.mem_reverse, List.mem_map] at hp
      obtain ⟨r, hr, rfl⟩ := hp
      split at he
      · rename_i hc
        obtain ⟨rfl, rfl⟩ := hc
        cases he
        have h1 := (mem_written hInv _ _ _).1 ho
        have h2 := (mem_written hInv r.1 r.2.1 r.2.2).1 hr
        rw [h1] at h2; cases h2; rfl
      · cases he

/-- A manager with a depth prior, an overwritten pair and a removed one. -/
def sampleManager : TM (List Char) (List Char) (Obs Int Nat) :=
  TM.run [.add "im1".toList "0".toList ⟨1, -2, 3, 10, 20, 30, 7, -1, 4, some 5⟩,
    .add "im2".toList "0".toList ⟨1, 2, 3, 1, 2, 3, 8, -1, 5, none⟩,
    .add "im2".toList "1".toList ⟨9, 2, 3, 1, 2, 3, 9, -1, 5, none⟩,
    .remove "im2".toList "1".toList]

example : (fromString (D := Nat) sampleParse 0 (asString sampleFmt sampleManager)).toOption.map
    (fun m => m.getObservation "im1".toList "0".toList) =
      some (.ok (⟨1, -2, 3, 10, 20, 30, 7, -1, 4, none⟩ : Obs Int Nat)) ∧
    (∀ x : Int, sampleParse (sampleFmt x) = some x) ∧
    (∀ x : Int, '\t' ∉ sampleFmt x ∧ '\n' ∉ sampleFmt x) ∧ Reachable sampleManager :=
  ⟨by decide +kernel, stoi_fmtInt, fun x => (fmtInt_clean x).2, ⟨_, rfl⟩⟩

end Verif.TracksText
