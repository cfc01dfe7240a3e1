import Verif.Model.CameraIds
import Verif.Spec.CameraIds
import Mathlib.Tactic.Linarith

/-!
# C129: camera identifiers
-/
set_option linter.unusedSimpArgs false
set_option linter.unusedVariables false
namespace Verif.CameraIds
open Verif.Text Verif.PyText
open Spec

theorem removeGo_skip (old : List Char) (n : ℕ) (s : List Char) : removeGo old n s = removeGo old 0 (s.drop n) := by
  induction s generalizing n with
  | nil => cases n <;> simp [removeGo]
  | cons c s ih =>
    cases n with
    | zero => rfl
    | succ n => simp [removeGo, ih]

theorem removeGo_hit {old : List Char} (h : old ≠ []) (rest : List Char) :
    removeGo old 0 (old ++ rest) = removeGo old 0 rest := by
  cases old with
  | nil => exact absurd rfl h
  | cons c o =>
    have : (c :: o).isPrefixOf (c :: (o ++ rest)) = true := by
      rw [List.isPrefixOf_iff_prefix]; exact ⟨rest, rfl⟩
    rw [List.cons_append, removeGo, if_pos this, removeGo_skip]
    simp

theorem removeGo_miss {old : List Char} {c : Char} {s : List Char} (h : ¬ old <+: c :: s) :
    removeGo old 0 (c :: s) = c :: removeGo old 0 s := by
  rw [removeGo, if_neg]
  rwa [List.isPrefixOf_iff_prefix]

theorem removeGo_removed {old : List Char} (h : old ≠ []) :
    ∀ (n : ℕ) (s : List Char), s.length ≤ n → Removed old s (removeGo old 0 s) := by
  intro n
  induction n with
  | zero =>
    intro s hs
    cases s with
    | nil => exact .nil
    | cons c s => simp at hs
  | succ n ih =>
    intro s hs
    by_cases hp : old <+: s
    · obtain ⟨rest, rfl⟩ := hp
      rw [removeGo_hit h]
      refine .hit (ih _ ?_)
      have : 0 < old.length := List.length_pos_of_ne_nil h
      simp at hs; omega
    · cases s with
      | nil => exact .nil
      | cons c s =>
        rw [removeGo_miss hp]
        refine .miss hp (ih _ ?_)
        simp at hs; omega

theorem removed_removeGo {old : List Char} (h : old ≠ []) {s t : List Char} (hr : Removed old s t) :
    removeGo old 0 s = t := by
  induction hr with
  | nil => simp [removeGo]
  | hit _ ih => rw [removeGo_hit h, ih]
  | miss hp _ ih => rw [removeGo_miss hp, ih]

theorem bare_spec (make model m : List Char) : Bare make model m ↔ bareModel make model = m := by
  have hu : ("unknown".toList : List Char) = unknown := by decide
  unfold Bare bareModel
  rw [hu]
  by_cases h : make = unknown
  · subst h
    simp [eq_comm]
  · by_cases h0 : make = []
    · subst h0
      simp [h, remove, eq_comm]
    · simp only [h, h0, or_self, false_implies, true_and, ne_eq, not_false_eq_true, forall_const, if_true, remove,
        if_false]
      constructor
      · exact removed_removeGo h0
      · rintro rfl; exact removeGo_removed h0 _ _ (le_refl _)

/-- **The make is removed from the model from left to right, without overlaps, and nothing else is; the
removal always succeeds and has one result; a make that does not occur changes nothing.** -/
theorem C129_removed (make model : List Char) :
    (∃! m, Bare make model m) ∧ (¬ make <:+: model → Bare make model model) := by
  refine ⟨⟨bareModel make model, (bare_spec _ _ _).2 rfl, fun m hm => ((bare_spec _ _ _).1 hm).symm⟩, ?_⟩
  intro hn
  refine ⟨fun _ => rfl, fun h0 _ => ?_⟩
  clear h0
  induction model with
  | nil => exact .nil
  | cons c s ih =>
    refine .miss (fun hp => hn hp.isInfix) (ih (fun hi => hn (hi.trans (List.suffix_cons c s).isInfix)))

/-- What remains may still contain the make: removing is done once. -/
example : Bare "ab".toList "aabb".toList "ab".toList :=
  (bare_spec _ _ _).2 (by decide)

/-- **The identifier is `v2`, the make, the model without the make, the size, the projection and six characters
of the focal ratio, separated by spaces, in lower case.** -/
theorem C129_shape (d : Ident) (m : List Char) (hm : Bare d.make d.model m) :
    d.id = ("v2 ".toList ++ strip d.make ++ ' ' :: strip m ++ ' ' :: fmtInt d.width ++ ' ' :: fmtInt d.height ++
      ' ' :: d.projection ++ ' ' :: d.focal.take 6).map Char.toLower := by
  rw [← (bare_spec _ _ _).1 hm]
  unfold Ident.id cameraId lower
  congr 1
  simp [joinSep]

theorem toLower_space {c : Char} (h : c.toLower = ' ') : c = ' ' := by
  unfold Char.toLower at h
  split at h
  · rename_i hc
    exfalso
    have h2 := congrArg Char.toNat h
    have h1 := hc
    simp only [Char.toNat, Char.val] at h2
    simp only [ge_iff_le, UInt32.le_iff_toNat_le] at h1
    have h3 := h1.1
    have h4 := h1.2
    simp at h2 h3 h4
    omega
  · exact h

theorem last_field {a a' b b' : List Char} (h : a ++ ' ' :: b = a' ++ ' ' :: b') (hb : ' ' ∉ b) (hb' : ' ' ∉ b') :
    a = a' ∧ b = b' := by
  rcases List.append_eq_append_iff.1 h with ⟨c, h1, h2⟩ | ⟨c, h1, h2⟩
  · cases c with
    | nil => simp at h1 h2; exact ⟨h1.symm, h2⟩
    | cons x c =>
      exfalso
      simp at h2
      apply hb; rw [h2.2]; simp
  · cases c with
    | nil => simp at h1 h2; exact ⟨h1, h2.symm⟩
    | cons x c =>
      exfalso
      simp at h2
      apply hb'; rw [h2.2]; simp

theorem digitChar_lower {d : ℕ} (h : d < 10) : (digitChar d).toLower = digitChar d ∧ digitChar d ≠ ' ' := by
  have : d = 0 ∨ d = 1 ∨ d = 2 ∨ d = 3 ∨ d = 4 ∨ d = 5 ∨ d = 6 ∨ d = 7 ∨ d = 8 ∨ d = 9 := by omega
  rcases this with rfl | rfl | rfl | rfl | rfl | rfl | rfl | rfl | rfl | rfl <;> decide

theorem fmtInt_lower (i : ℤ) : (fmtInt i).map Char.toLower = fmtInt i ∧ ' ' ∉ fmtInt i := by
  have key : ∀ n, (fmtNat n).map Char.toLower = fmtNat n ∧ ' ' ∉ fmtNat n := by
    intro n
    obtain ⟨_, _, h3⟩ := fmtNat_spec n
    constructor
    · refine (List.map_congr_left (g := id) ?_).trans (by simp)
      intro c hc
      obtain ⟨d, hd, rfl⟩ := h3 c hc
      exact (digitChar_lower hd).1
    · intro hc
      obtain ⟨d, hd, h⟩ := h3 _ hc
      exact (digitChar_lower hd).2 h.symm
  cases i with
  | ofNat n => exact key n
  | negSucc n =>
    have := key (n + 1)
    constructor
    · show ('-' :: fmtNat (n + 1)).map Char.toLower = '-' :: fmtNat (n + 1)
      rw [List.map_cons, this.1]
      congr 1
    · show ' ' ∉ '-' :: fmtNat (n + 1)
      simp [this.2]

theorem fmtInt_inj {i j : ℤ} (h : fmtInt i = fmtInt j) : i = j := by
  have := stoi_fmtInt i
  rw [h, stoi_fmtInt] at this
  exact (Option.some.inj this).symm

theorem lower_nospace {s : List Char} (h : ' ' ∉ s) : ' ' ∉ s.map Char.toLower := by
  intro hc
  obtain ⟨c, hc, he⟩ := List.mem_map.1 hc
  rw [toLower_space he] at hc
  exact h hc

/-- **Two images with the same identifier have the same size, the same projection and the same first six
characters of the focal ratio (up to case), and the same make and model read as one text, whatever the makes
and models are.** The projections and the printed focal ratios contain no space. -/
theorem C129_determines (d e : Ident) (m n : List Char) (hm : Bare d.make d.model m) (hn : Bare e.make e.model n)
    (hp : ' ' ∉ d.projection ∧ ' ' ∉ e.projection) (hf : ' ' ∉ d.focal ∧ ' ' ∉ e.focal) (h : d.id = e.id) :
    d.width = e.width ∧ d.height = e.height ∧
    d.projection.map Char.toLower = e.projection.map Char.toLower ∧
    (d.focal.take 6).map Char.toLower = (e.focal.take 6).map Char.toLower ∧
    (strip d.make ++ ' ' :: strip m).map Char.toLower = (strip e.make ++ ' ' :: strip n).map Char.toLower := by
  rw [C129_shape d m hm, C129_shape e n hn] at h
  have ht : ∀ f : List Char, ' ' ∉ f → ' ' ∉ f.take 6 := fun f hf hc => hf (List.mem_of_mem_take hc)
  simp only [List.map_append, List.map_cons, show Char.toLower ' ' = ' ' from by decide] at h
  obtain ⟨h, h1⟩ := last_field h (by simpa using lower_nospace (ht _ hf.1)) (by simpa using lower_nospace (ht _ hf.2))
  obtain ⟨h, h2⟩ := last_field h (lower_nospace hp.1) (lower_nospace hp.2)
  obtain ⟨h, h3⟩ := last_field h (lower_nospace (fmtInt_lower _).2) (lower_nospace (fmtInt_lower _).2)
  obtain ⟨h, h4⟩ := last_field h (lower_nospace (fmtInt_lower _).2) (lower_nospace (fmtInt_lower _).2)
  rw [(fmtInt_lower _).1, (fmtInt_lower _).1] at h3 h4
  refine ⟨fmtInt_inj h4, fmtInt_inj h3, h2, h1, ?_⟩
  simp only [List.append_assoc] at h
  simpa [List.map_append, show Char.toLower ' ' = ' ' from by decide] using List.append_cancel_left h

/-- **When the makes and models contain no space, each of them is determined too (up to case and to the make
being removed).** -/
theorem C129_separate (d e : Ident) (m n : List Char) (hm : Bare d.make d.model m) (hn : Bare e.make e.model n)
    (hp : ' ' ∉ d.projection ∧ ' ' ∉ e.projection) (hf : ' ' ∉ d.focal ∧ ' ' ∉ e.focal)
    (hs : ' ' ∉ strip m ∧ ' ' ∉ strip n) (h : d.id = e.id) :
    (strip d.make).map Char.toLower = (strip e.make).map Char.toLower ∧
    (strip m).map Char.toLower = (strip n).map Char.toLower := by
  have h := (C129_determines d e m n hm hn hp hf h).2.2.2.2
  simp only [List.map_append, List.map_cons, show Char.toLower ' ' = ' ' from by decide] at h
  exact last_field h (lower_nospace hs.1) (lower_nospace hs.2)

/-- **Two cameras whose make and model differ get one identifier when the words only move from the make to the
model, whatever the rest.** -/
theorem C129_words_move (w h : ℤ) (p f : List Char) :
    (Ident.mk "A B".toList "C".toList w h p f).id = (Ident.mk "A".toList "B C".toList w h p f).id := by
  rw [C129_shape _ "C".toList ((bare_spec "A B".toList "C".toList _).2 (by decide)),
    C129_shape _ "B C".toList ((bare_spec "A".toList "B C".toList _).2 (by decide))]
  rw [show strip "A B".toList = "A B".toList from by decide, show strip "C".toList = "C".toList from by decide,
    show strip "A".toList = "A".toList from by decide, show strip "B C".toList = "B C".toList from by decide]
  congr 1

/-- **Focal ratios that are printed with the same first six characters are not told apart**: images of one
camera at two zoom settings share the camera, also when an exponent follows. -/
theorem C129_focal (d : Ident) (f : List Char) (h : f.take 6 = d.focal.take 6) :
    { d with focal := f }.id = d.id := by
  unfold Ident.id cameraId
  simp only [h]

example : ("1.2345".toList).take 6 = ("1.2345e-05".toList).take 6 := by decide

/-- **The identifier contains no upper case letter.** -/
theorem C129_lower (d : Ident) : ∀ c ∈ d.id, ¬ ('A' ≤ c ∧ c ≤ 'Z') := by
  intro c hc
  unfold Ident.id cameraId lower at hc
  obtain ⟨x, _, rfl⟩ := List.mem_map.1 hc
  unfold Char.toLower
  split
  · rename_i hx
    intro h
    have h1 := hx
    simp only [ge_iff_le, UInt32.le_iff_toNat_le] at h1
    have h3 := h1.1
    have h4 := h1.2
    have h2 := h.2
    simp only [Char.le_def, UInt32.le_iff_toNat_le] at h2
    simp at h2 h3 h4
    omega
  · rename_i hx
    intro h
    apply hx
    simpa [Char.le_def] using h

/-- **The key of the sensor database is the make and the bare model in lower case, without space around.** -/
theorem C129_sensor (make model m : List Char) (hm : Bare make model m) :
    sensorString make model = (strip (strip make ++ ' ' :: strip m)).map Char.toLower := by
  rw [← (bare_spec _ _ _).1 hm]; rfl

/-- **The make and the model are read from the lens tags when there are any, also when the image has its own;
each on its own; bytes which are not text count as unknown.** -/
theorem C129_make_model {B : Type} (decode : B → Option (List Char)) (tags : Dict String (Raw B)) :
    (∀ v, tags.get? "EXIF LensMake" = some (.str v) → extractMake decode tags = some v) ∧
    (∀ v, tags.get? "EXIF LensMake" = none → tags.get? "Image Make" = some (.str v) →
      extractMake decode tags = some v) ∧
    (tags.get? "EXIF LensMake" = none → tags.get? "Image Make" = none →
      extractMake decode tags = some "unknown".toList) ∧
    (∀ v, tags.get? "EXIF LensModel" = some (.str v) → extractModel decode tags = some v) ∧
    (∀ v, tags.get? "EXIF LensModel" = none → tags.get? "Image Model" = some (.str v) →
      extractModel decode tags = some v) ∧
    (tags.get? "EXIF LensModel" = none → tags.get? "Image Model" = none →
      extractModel decode tags = some "unknown".toList) ∧
    (∀ b, tags.get? "EXIF LensMake" = some (.bytes b) →
      extractMake decode tags = some ((decode b).getD "unknown".toList)) ∧
    (∀ b, tags.get? "EXIF LensModel" = some (.bytes b) →
      extractModel decode tags = some ((decode b).getD "unknown".toList)) ∧
    (∀ b, tags.get? "EXIF LensMake" = none → tags.get? "Image Make" = some (.bytes b) →
      extractMake decode tags = some ((decode b).getD "unknown".toList)) ∧
    (∀ b, tags.get? "EXIF LensModel" = none → tags.get? "Image Model" = some (.bytes b) →
      extractModel decode tags = some ((decode b).getD "unknown".toList)) ∧
    (tags.get? "EXIF LensMake" = some .other → extractMake decode tags = none) ∧
    (tags.get? "EXIF LensModel" = some .other → extractModel decode tags = none) := by
  have hu : ("unknown".toList : List Char) = unknown := by decide
  rw [hu]
  unfold extractMake extractModel lensOrImage
  refine ⟨?_, ?_, ?_, ?_, ?_, ?_, ?_, ?_, ?_, ?_, ?_, ?_⟩
  · intro v h; rw [h]; rfl
  · intro v h h'; rw [h, h']; rfl
  · intro h h'; rw [h, h']; rfl
  · intro v h; rw [h]; rfl
  · intro v h h'; rw [h, h']; rfl
  · intro h h'; rw [h, h']; rfl
  · intro v h; rw [h]; rfl
  · intro v h; rw [h]; rfl
  · intro v h h'; rw [h, h']; rfl
  · intro v h h'; rw [h, h']; rfl
  · intro h; rw [h]; rfl
  · intro h; rw [h]; rfl

theorem contains_spec (old k : List Char) : contains old k = true ↔ old <:+: k := by
  induction k with
  | nil => simp [contains]
  | cons c k ih => rw [contains, Bool.or_eq_true, ih, List.isPrefixOf_iff_prefix, List.infix_cons_iff]

theorem isGPano_spec (k : List Char) : isGPano k = true ↔ "GPano".toList <:+: k := by
  unfold isGPano
  rw [contains_spec]
  exact Iff.of_eq (congrArg (· <:+: k) (by decide))

theorem gpano_spec (xmp : List Desc) :
    ((∀ i ∈ xmp, ∀ kv ∈ i, ¬ "GPano".toList <:+: kv.1) ∧ gpano xmp = []) ∨
    ∃ pre i post, xmp = pre ++ i :: post ∧ (∀ j ∈ pre, ∀ kv ∈ j, ¬ "GPano".toList <:+: kv.1) ∧
      (∃ kv ∈ i, "GPano".toList <:+: kv.1) ∧ gpano xmp = i := by
  induction xmp with
  | nil => exact .inl ⟨by simp, rfl⟩
  | cons i xmp ih =>
    by_cases h : i.any (fun kv => isGPano kv.1) = true
    · right
      refine ⟨[], i, xmp, rfl, by simp, ?_, ?_⟩
      · obtain ⟨kv, hkv, hg⟩ := List.any_eq_true.1 h
        exact ⟨kv, hkv, (isGPano_spec _).1 hg⟩
      · rw [gpano, if_pos h]
    · have hno : ∀ kv ∈ i, ¬ "GPano".toList <:+: kv.1 := by
        intro kv hkv hg
        exact h (List.any_eq_true.2 ⟨kv, hkv, (isGPano_spec _).2 hg⟩)
      have hg : gpano (i :: xmp) = gpano xmp := by rw [gpano, if_neg h]
      rw [hg]
      rcases ih with ⟨h1, h2⟩ | ⟨pre, j, post, h1, h2, h3, h4⟩
      · left
        refine ⟨?_, h2⟩
        intro j hj
        rcases List.mem_cons.1 hj with rfl | hj
        · exact hno
        · exact h1 j hj
      · right
        refine ⟨i :: pre, j, post, by rw [h1]; rfl, ?_, h3, h4⟩
        intro k hk
        rcases List.mem_cons.1 hk with rfl | hk
        · exact hno
        · exact h2 k hk

/-- **The projection is the one of the first description that speaks of a panorama at all, and perspective when
there is none or when that one does not name a projection, even if a later one does.** -/
theorem C129_projection (xmp : List Desc) :
    ((∀ i ∈ xmp, ∀ kv ∈ i, ¬ "GPano".toList <:+: kv.1) ∧ extractProjection xmp = "perspective".toList) ∨
    ∃ pre i post, xmp = pre ++ i :: post ∧ (∀ j ∈ pre, ∀ kv ∈ j, ¬ "GPano".toList <:+: kv.1) ∧
      (∃ kv ∈ i, "GPano".toList <:+: kv.1) ∧
      (∀ p, i.get? "GPano:ProjectionType".toList = some p → extractProjection xmp = p) ∧
      (i.get? "GPano:ProjectionType".toList = none → extractProjection xmp = "perspective".toList) := by
  have hk : ("GPano:ProjectionType".toList : List Char) = projectionKey := by decide
  have hd : ("perspective".toList : List Char) = ['p', 'e', 'r', 's', 'p', 'e', 'c', 't', 'i', 'v', 'e'] := by decide
  rcases gpano_spec xmp with ⟨h1, h2⟩ | ⟨pre, i, post, h1, h2, h3, h4⟩
  · left
    refine ⟨h1, ?_⟩
    unfold extractProjection
    rw [h2, hd]; rfl
  · right
    refine ⟨pre, i, post, h1, h2, h3, ?_, ?_⟩
    · intro p hp
      unfold extractProjection
      rw [h4, ← hk, hp]; rfl
    · intro hp
      unfold extractProjection
      rw [h4, ← hk, hp, hd]; rfl

/-- **The recorded identifier is the one of the recorded data; size, make and focal ratio stay, the projection
is the configured one when there is one, the model stays unless unknown ones are to be told apart.** -/
theorem C129_recorded (cfg : Cfg) (image : List Char) (d : Ident) :
    let r := extractExif cfg image d
    r.2 = r.1.id ∧ r.1.make = d.make ∧ r.1.width = d.width ∧ r.1.height = d.height ∧ r.1.focal = d.focal ∧
    (∀ p, p ≠ [] → cfg.defaultProjection = some p → r.1.projection = p) ∧
    (cfg.defaultProjection = none ∨ cfg.defaultProjection = some [] → r.1.projection = d.projection) ∧
    (cfg.unknownDifferent = false ∨ (d.model ≠ [] ∧ d.model ≠ "unknown".toList) → r.1.model = d.model) ∧
    (cfg.unknownDifferent = true → d.model = [] ∨ d.model = "unknown".toList →
      r.1.model = "unknown_".toList ++ image) := by
  have hu : ("unknown".toList : List Char) = unknown := by decide
  have hu' : ("unknown_".toList : List Char) = unknown ++ ['_'] := by decide
  rw [hu, hu']
  refine ⟨rfl, rfl, rfl, rfl, rfl, ?_, ?_, ?_, ?_⟩
  · intro p hp h
    show projectionOf cfg.defaultProjection d.projection = p
    rw [h]
    cases p with
    | nil => exact absurd rfl hp
    | cons c cs => rfl
  · intro h
    show projectionOf cfg.defaultProjection d.projection = d.projection
    rcases h with h | h <;> rw [h] <;> rfl
  · intro h
    show modelOf cfg.unknownDifferent image d.model = d.model
    unfold modelOf
    rw [if_neg]
    rintro ⟨h1, h2⟩
    rcases h with h | ⟨h3, h4⟩
    · rw [h] at h1; cases h1
    · exact h2.elim h3 h4
  · intro h1 h2
    show modelOf cfg.unknownDifferent image d.model = _
    unfold modelOf
    rw [if_pos ⟨h1, h2⟩]
    simp

theorem strip_id {w : List Char} (hh : ∀ c, w.head? = some c → pySpace c = false)
    (hl : ∀ c, w.getLast? = some c → pySpace c = false) : strip w = w := by
  simpa using strip_surround (sp := []) (tl := []) (by simp) (by simp) hh hl

/-- **When unknown cameras are to be told apart, two images of unknown make and model share a camera only when
their names agree up to case.** The names do not end with white space. -/
theorem C129_unknown_apart (cfg : Cfg) (i j : List Char) (d e : Ident) (hc : cfg.unknownDifferent = true)
    (hd : d.make = "unknown".toList ∧ d.model = "unknown".toList)
    (he : e.make = "unknown".toList ∧ e.model = "unknown".toList)
    (hp : cfg.defaultProjection = none) (hps : ' ' ∉ d.projection ∧ ' ' ∉ e.projection)
    (hf : ' ' ∉ d.focal ∧ ' ' ∉ e.focal)
    (hi : ∀ c, i.getLast? = some c → pySpace c = false) (hj : ∀ c, j.getLast? = some c → pySpace c = false)
    (h : (extractExif cfg i d).2 = (extractExif cfg j e).2) :
    i.map Char.toLower = j.map Char.toLower := by
  obtain ⟨a1, a2, -, -, a3, -, a4, -, a5⟩ := C129_recorded cfg i d
  obtain ⟨b1, b2, -, -, b3, -, b4, -, b5⟩ := C129_recorded cfg j e
  rw [a1, b1] at h
  have a5 := a5 hc (.inr hd.2)
  have b5 := b5 hc (.inr he.2)
  have a4 := a4 (.inl hp)
  have b4 := b4 (.inl hp)
  have hs : ∀ k : List Char, (∀ c, k.getLast? = some c → pySpace c = false) →
      strip ("unknown_".toList ++ k) = "unknown_".toList ++ k := by
    intro k hk
    refine strip_id ?_ ?_
    · intro c hc
      rw [show "unknown_".toList = ['u', 'n', 'k', 'n', 'o', 'w', 'n', '_'] from by decide] at hc
      simp at hc; subst hc; decide
    · intro c hc
      rw [List.getLast?_append] at hc
      cases hg : k.getLast? with
      | none =>
        rw [hg] at hc
        rw [show "unknown_".toList.getLast? = some '_' from by decide] at hc
        simp at hc; subst hc; decide
      | some x =>
        rw [hg] at hc
        simp at hc; subst hc; exact hk _ hg
  have h := (C129_determines _ _ (m := "unknown_".toList ++ i) (n := "unknown_".toList ++ j)
    ⟨fun _ => a5.symm, fun _ hx => absurd (a2.trans hd.1) hx⟩
    ⟨fun _ => b5.symm, fun _ hx => absurd (b2.trans he.1) hx⟩
    (by rw [a4, b4]; exact hps) (by rw [a3, b3]; exact hf) h).2.2.2.2
  rw [a2, b2, hd.1, he.1, hs i hi, hs j hj] at h
  simp only [List.map_append, List.map_cons] at h
  exact List.append_cancel_left (List.cons.inj (List.append_cancel_left h)).2

/-- A make removes its text from the name of the image too: then two images share the camera. -/
example :
    (extractExif ⟨true, none⟩ "AX.jpg".toList ⟨"X".toList, [], 10, 20, "perspective".toList, "0.85".toList⟩).2 =
    (extractExif ⟨true, none⟩ "A.jpg".toList ⟨"X".toList, [], 10, 20, "perspective".toList, "0.85".toList⟩).2 := by
  decide +kernel

example : (Ident.mk "Canon ".toList "Canon EOS 5D".toList 5616 3744 "perspective".toList
    "0.6944444444444444".toList).id = "v2 canon eos 5d 5616 3744 perspective 0.6944".toList := by decide +kernel

example : (Ident.mk "Canon".toList "Canon EOS 5D".toList 5616 3744 "perspective".toList
    "0.6944444444444444".toList).id = "v2 canon eos 5d 5616 3744 perspective 0.6944".toList := by decide +kernel

/-- Two images of unknown make and model are told apart. -/
example : (extractExif ⟨true, none⟩ "a.jpg".toList ⟨"unknown".toList, "unknown".toList, 10, 20, "perspective".toList,
      "0.85".toList⟩).2 ≠
    (extractExif ⟨true, none⟩ "b.jpg".toList ⟨"unknown".toList, "unknown".toList, 10, 20, "perspective".toList,
      "0.85".toList⟩).2 := by
  intro h
  have := C129_unknown_apart ⟨true, none⟩ _ _ _ _ rfl ⟨rfl, rfl⟩ ⟨rfl, rfl⟩ rfl ⟨by decide, by decide⟩
    ⟨by decide, by decide⟩ (by decide) (by decide) h
  exact absurd this (by decide)

end Verif.CameraIds
