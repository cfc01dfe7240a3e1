import Verif.Model.DatasetFiles
import Mathlib.Data.List.Nodup
import Mathlib.Tactic.Common

/-!
# C71, C72: images, masks and subsets of a dataset
-/
set_option linter.unusedSectionVars false
set_option linter.unusedSimpArgs false
namespace Verif.DatasetFiles
open Verif.PyText

/-! ### C71: the images -/

theorem splitAll_last (p q : Name) (hq : '/' ∉ q) : (Text.splitAll '/' (p ++ '/' :: q)).getLastD [] = q := by
  induction p with
  | nil =>
    rw [List.nil_append, Text.splitAll, if_pos rfl, Text.splitAll_plain hq]
    rfl
  | cons c p ih =>
    rw [List.cons_append, Text.splitAll]
    have hne := Text.splitAll_ne_nil '/' (p ++ '/' :: q)
    split
    · cases h : Text.splitAll '/' (p ++ '/' :: q) with
      | nil => exact absurd h hne
      | cons a l => rw [h] at ih; simpa using ih
    · cases h : Text.splitAll '/' (p ++ '/' :: q) with
      | nil => exact absurd h hne
      | cons a l =>
        rw [h] at ih
        cases l with
        | nil =>
          -- a separator gives at least two pieces
          exfalso
          have : ∀ p : Name, (Text.splitAll '/' (p ++ '/' :: q)).length ≥ 2 := by
            intro p
            induction p with
            | nil => rw [List.nil_append, Text.splitAll, if_pos rfl, Text.splitAll_plain hq]; simp
            | cons c p ihp =>
              rw [List.cons_append, Text.splitAll]
              split
              · simp; omega
              · cases hh : Text.splitAll '/' (p ++ '/' :: q) with
                | nil => rw [hh] at ihp; simp at ihp
                | cons x y => rw [hh] at ihp; simpa using ihp
          have := this p
          rw [h] at this
          simp at this
        | cons b l => simpa using ih

/-- C71. The name of an image in `image_list.txt` is what follows the last slash. -/
theorem C71_name (dataPath dir name : Name) (hn : '/' ∉ name) :
    basename (join dataPath (dir ++ '/' :: name)) = name ∧
    (name ≠ [] → dataPath ≠ [] → basename (join dataPath name) = name) := by
  constructor
  · unfold join
    split
    · exact splitAll_last dir name hn
    · split
      · rw [← List.append_assoc]; exact splitAll_last (dataPath ++ dir) name hn
      · rw [show dataPath ++ '/' :: (dir ++ '/' :: name) = (dataPath ++ '/' :: dir) ++ '/' :: name by simp]
        exact splitAll_last _ name hn
  · intro hne hd
    unfold join
    have hh : name.head? ≠ some '/' := by
      cases name with
      | nil => exact absurd rfl hne
      | cons c n =>
        intro h
        simp at h
        exact hn (by simp [h])
    rw [if_neg hh]
    split
    · rename_i hlast
      have : dataPath = dataPath.dropLast ++ ['/'] := by
        have := List.dropLast_append_getLast hd
        rw [List.getLast?_eq_getLast_of_ne_nil hd] at hlast
        rw [Option.some.inj hlast] at this
        exact this.symm
      rw [this, show dataPath.dropLast ++ ['/'] ++ name = dataPath.dropLast ++ '/' :: name by simp]
      exact splitAll_last _ name hn
    · exact splitAll_last dataPath name hn

theorem setImageList_spec (dataPath : Name) (lines : List Name) (r : List Name × Dict Name Name) :
    (lines.foldl (addLine dataPath) r).1 = r.1 ++ lines.map (fun l => basename (join dataPath l)) ∧
    ∀ k, (lines.foldl (addLine dataPath) r).2.get? k =
      match lines.reverse.find? (fun l => basename (join dataPath l) = k) with
      | some l => some (join dataPath l)
      | none => r.2.get? k := by
  induction lines generalizing r with
  | nil => exact ⟨by simp, fun k => rfl⟩
  | cons a l ih =>
    rw [List.foldl_cons]
    obtain ⟨h1, h2⟩ := ih (addLine dataPath r a)
    constructor
    · rw [h1]; simp [addLine]
    · intro k
      rw [h2, List.reverse_cons, List.find?_append]
      cases hf : l.reverse.find? (fun l => basename (join dataPath l) = k) with
      | some x => rfl
      | none =>
        simp only [Option.none_or, addLine, Dict.get?_set, List.find?_cons, List.find?_nil]
        by_cases h : basename (join dataPath a) = k <;> simp [h]

/-- C71. With `image_list.txt` the images are its lines in order, by base name; a name listed twice is
twice in the list of images, and its file is that of the last line. -/
theorem C71_list (dataPath : Name) (f : Folder) (lines : List Name) (hf : f.imageList = some lines)
    (hl : lines ≠ []) :
    ∃ r, loadImageList dataPath f = some r ∧
      r.1 = lines.map (fun l => basename (join dataPath l)) ∧
      (∀ k p, r.2.get? k = some p ↔ ∃ l1 l l2, lines = l1 ++ l :: l2 ∧ basename (join dataPath l) = k ∧
        p = join dataPath l ∧ ∀ x ∈ l2, basename (join dataPath x) ≠ k) := by
  obtain ⟨h1, h2⟩ := setImageList_spec dataPath lines ([], [])
  refine ⟨setImageList dataPath lines, ?_, by simpa [setImageList] using h1, ?_⟩
  · unfold loadImageList
    rw [hf]
    simp only
    rw [if_neg]
    rintro ⟨-, h⟩
    unfold setImageList at h
    rw [h1] at h
    simp at h
    exact hl h
  · intro k p
    unfold setImageList
    rw [h2]
    constructor
    · intro h
      cases hfd : lines.reverse.find? (fun l => basename (join dataPath l) = k) with
      | none => rw [hfd] at h; cases h
      | some l =>
        rw [hfd] at h
        have hp : join dataPath l = p := Option.some.inj h
        obtain ⟨hk, a, b, hab, ha⟩ := List.find?_eq_some_iff_append.1 hfd
        have : lines = b.reverse ++ l :: a.reverse := by
          have := congrArg List.reverse hab
          simpa using this
        refine ⟨b.reverse, l, a.reverse, this, by simpa using hk, hp.symm, ?_⟩
        intro x hx
        have := ha x (List.mem_reverse.1 hx)
        simpa using this
    · rintro ⟨l1, l, l2, rfl, hk, rfl, hx⟩
      have : (l1 ++ l :: l2).reverse.find? (fun l => basename (join dataPath l) = k) = some l := by
        rw [List.find?_eq_some_iff_append]
        refine ⟨by simpa using hk, l2.reverse, l1.reverse, by simp, ?_⟩
        intro x hxm
        have := hx x (List.mem_reverse.1 hxm)
        simpa using this
      rw [this]

theorem setImagePath_spec (path : Name) (names : List Name) (hn : names.Nodup)
    (r : List Name × Dict Name Name) :
    (names.foldl (addFile path) r).1 = r.1 ++ names.filter isImageFile ∧
    ∀ k, (names.foldl (addFile path) r).2.get? k =
      if k ∈ names ∧ isImageFile k = true then some (join path k) else r.2.get? k := by
  induction names generalizing r with
  | nil => exact ⟨by simp, fun k => by simp⟩
  | cons a l ih =>
    have hnd := List.nodup_cons.1 hn
    rw [List.foldl_cons]
    obtain ⟨h1, h2⟩ := ih hnd.2 (addFile path r a)
    unfold addFile at h1 h2
    constructor
    · unfold addFile
      rw [h1]
      by_cases h : isImageFile a = true <;> simp [h]
    · intro k
      unfold addFile
      rw [h2]
      by_cases h : isImageFile a = true
      · rw [if_pos h]
        by_cases hk : k ∈ l ∧ isImageFile k = true
        · rw [if_pos hk, if_pos ⟨List.mem_cons_of_mem _ hk.1, hk.2⟩]
        · rw [if_neg hk]
          simp only
          rw [Dict.get?_set]
          by_cases hak : a = k
          · subst hak; simp [h]
          · rw [if_neg hak, if_neg]
            rintro ⟨hm, hi⟩
            rcases List.mem_cons.1 hm with rfl | hm
            · exact hak rfl
            · exact hk ⟨hm, hi⟩
      · rw [if_neg h]
        by_cases hk : k ∈ l ∧ isImageFile k = true
        · rw [if_pos hk, if_pos ⟨List.mem_cons_of_mem _ hk.1, hk.2⟩]
        · rw [if_neg hk, if_neg]
          rintro ⟨hm, hi⟩
          rcases List.mem_cons.1 hm with rfl | hm
          · exact h hi
          · exact hk ⟨hm, hi⟩

/-- C71. Without the list the images are the image files of the folder `images`, each once. -/
theorem C71_folder (dataPath : Name) (f : Folder) (hf : f.imageList = none) (d : Dict Name Name)
    (hd : f.images = some d) (hw : d.Wf) (r : List Name × Dict Name Name)
    (hr : loadImageList dataPath f = some r) :
    r.1 = d.keys.filter isImageFile ∧ r.1.Nodup ∧
    ∀ k, r.2.get? k = if k ∈ r.1 then some (join (join dataPath "images".toList) k) else none := by
  unfold loadImageList at hr
  rw [hf, hd] at hr
  simp only [Option.map_some] at hr
  split at hr
  · cases hr
  · have hr' := Option.some.inj hr
    obtain ⟨h1, h2⟩ := setImagePath_spec (join dataPath "images".toList) d.keys hw ([], [])
    simp only [setImagePath] at hr'
    rw [hr'] at h1 h2
    have h1' : r.1 = d.keys.filter isImageFile := by rw [h1]; rfl
    refine ⟨h1', by rw [h1']; exact hw.filter _, ?_⟩
    intro k
    rw [h2, h1']
    simp only [List.mem_filter, Dict.get?_nil]

/-- C71. Opening a dataset fails exactly when no image is found (or the mask list is malformed). -/
theorem C71_no_images (dataPath : Name) (hd : dataPath ≠ []) (f : Folder) :
    loadImageList dataPath f = none ↔
      f.imageList = some [] ∨
      (f.imageList = none ∧ ∀ d, f.images = some d → ∀ k ∈ d.keys, isImageFile k = false) := by
  have hkey : ∀ (path : Name) (names : List Name) (r : List Name × Dict Name Name),
      (names.foldl (addFile path) r).1 = r.1 ++ names.filter isImageFile := by
    intro path names
    induction names with
    | nil => intro r; simp
    | cons a l ih =>
      intro r
      rw [List.foldl_cons, ih]
      unfold addFile
      by_cases h : isImageFile a = true <;> simp [h]
  unfold loadImageList
  cases hl : f.imageList with
  | some lines =>
    simp only [Option.some.injEq, reduceCtorEq, false_and, or_false]
    have h1 := (setImageList_spec dataPath lines ([], [])).1
    unfold setImageList
    rw [h1]
    simp [hd]
  | none =>
    simp only [reduceCtorEq, false_or, true_and]
    cases hi : f.images with
    | none => simp [setImagePath, hd]
    | some d =>
      simp only [Option.map_some, setImagePath, hkey, List.nil_append, Option.some.injEq, forall_eq']
      by_cases h : d.keys.filter isImageFile = []
      · simp only [h, hd, ne_eq, not_false_eq_true, and_self, if_true, true_iff]
        rw [List.filter_eq_nil_iff] at h
        intro k hk
        simpa using h k hk
      · simp only [h, and_false, if_false, reduceCtorEq, false_iff]
        intro hall
        apply h
        rw [List.filter_eq_nil_iff]
        intro k hk
        simp [hall k hk]

/-- C71. An empty line in the list is an image with an empty name. -/
theorem C71_blank_line (dataPath : Name) (hd : dataPath ≠ []) (hn : dataPath.getLast? ≠ some '/') :
    (setImageList dataPath ["a.jpg".toList, []]).1 = ["a.jpg".toList, []] := by
  obtain ⟨h1, -⟩ := setImageList_spec dataPath ["a.jpg".toList, []] ([], [])
  unfold setImageList
  rw [h1]
  have ha := (C71_name dataPath [] "a.jpg".toList (by decide)).2 (by decide) hd
  have hb : basename (join dataPath []) = [] := by
    unfold join
    rw [if_neg (by simp), if_neg hn]
    exact splitAll_last dataPath [] (by simp)
  simp only [List.map_cons, List.map_nil, ha, hb, List.nil_append]

/-- C71. Whether a file is an image is decided by what follows its last dot, ignoring case; a name without
any dot counts as its own extension. -/
theorem C71_extension (stem ext : Name) (he : '.' ∉ ext) :
    isImageFile (stem ++ '.' :: ext) = decide (ext.map Char.toLower ∈ extensions) ∧
    isImageFile ext = decide (ext.map Char.toLower ∈ extensions) := by
  have hlast : ∀ (p q : Name), '.' ∉ q → (Text.splitAll '.' (p ++ '.' :: q)).getLastD [] = q := by
    intro p q hq
    have key : ∀ p : Name, ∃ l, l ≠ [] ∧ Text.splitAll '.' (p ++ '.' :: q) = l ++ [q] := by
      intro p
      induction p with
      | nil =>
        refine ⟨[[]], by simp, ?_⟩
        rw [List.nil_append, Text.splitAll, if_pos rfl, Text.splitAll_plain hq]
        rfl
      | cons c p ih =>
        obtain ⟨l, hl, h⟩ := ih
        rw [List.cons_append, Text.splitAll, h]
        split
        · exact ⟨[] :: l, by simp, rfl⟩
        · cases l with
          | nil => exact absurd rfl hl
          | cons x l => exact ⟨(c :: x) :: l, by simp, rfl⟩
    obtain ⟨l, -, h⟩ := key p
    rw [h]
    simp
  constructor
  · unfold isImageFile
    rw [hlast stem ext he]
  · unfold isImageFile
    rw [Text.splitAll_plain he]
    rfl

/-! ### C71: the masks -/

/-- C71. With a masks folder an image has the mask named after it, if there is one. -/
theorem C71_mask_folder (dataPath : Name) (images : List Name) (f : Folder) (hf : f.maskList = none)
    (m : Dict Name Name) (h : loadMaskList dataPath images f = some m) (im : Name) (him : im ∈ images) :
    m.get? im = if ∃ d, f.masks = some d ∧ im ++ ".png".toList ∈ d.keys then
      some (join (join dataPath "masks".toList) (im ++ ".png".toList)) else none := by
  unfold loadMaskList at h
  rw [hf] at h
  have h' := (Option.some.inj h).symm
  subst h'
  cases hm : f.masks with
  | none => simp [setMaskPath, hm]
  | some d =>
    simp only [setMaskPath, Option.map_some, Option.some.injEq, exists_eq_left']
    have key : ∀ (path : Name) (images : List Name) (m : Dict Name Name),
        (images.foldl (addMask path d.keys) m).get? im =
          if im ∈ images ∧ im ++ ".png".toList ∈ d.keys then some (join path (im ++ ".png".toList))
          else m.get? im := by
      intro path images
      induction images with
      | nil => intro m; simp
      | cons a l ih =>
        intro m
        rw [List.foldl_cons, ih]
        unfold addMask
        by_cases hl : im ∈ l ∧ im ++ ".png".toList ∈ d.keys
        · rw [if_pos hl, if_pos ⟨List.mem_cons_of_mem _ hl.1, hl.2⟩]
        · rw [if_neg hl]
          by_cases ha : a = im
          · subst ha
            by_cases hk : a ++ ".png".toList ∈ d.keys
            · rw [if_pos hk, if_pos ⟨by simp, hk⟩]; simp
            · rw [if_neg hk, if_neg (fun h => hk h.2)]
          · have hne : ¬ (im ∈ a :: l ∧ im ++ ".png".toList ∈ d.keys) := by
              rintro ⟨h1, h2⟩
              rcases List.mem_cons.1 h1 with rfl | h1
              · exact ha rfl
              · exact hl ⟨h1, h2⟩
            rw [if_neg hne]
            split
            · rw [Dict.get?_set_ne _ _ ha]
            · rfl
    rw [key]
    simp [him]

theorem splitOnce_words (sp w sp2 rel : List Char) (hs : ∀ c ∈ sp, pySpace c = true)
    (hw : w ≠ [] ∧ ∀ c ∈ w, pySpace c = false) (hs2 : sp2 ≠ [] ∧ ∀ c ∈ sp2, pySpace c = true)
    (hr : ∀ c, rel.head? = some c → pySpace c = false) (hrn : rel ≠ []) :
    splitOnce (sp ++ w ++ sp2 ++ rel) = [w, rel] := by
  have hdrop : ∀ (a b : List Char), (∀ c ∈ a, pySpace c = true) →
      (∀ c, b.head? = some c → pySpace c = false) → (a ++ b).dropWhile pySpace = b := by
    intro a b ha hb
    induction a with
    | nil =>
      cases b with
      | nil => rfl
      | cons c b => simp [List.dropWhile_cons, hb c rfl]
    | cons c a ih =>
      rw [List.cons_append, List.dropWhile_cons, if_pos (ha c (by simp))]
      exact ih (fun x hx => ha x (List.mem_cons_of_mem _ hx))
  have htake : ∀ (a b : List Char), (∀ c ∈ a, pySpace c = false) →
      (∀ c, b.head? = some c → pySpace c = true) →
      (a ++ b).takeWhile (fun c => !pySpace c) = a ∧ (a ++ b).dropWhile (fun c => !pySpace c) = b := by
    intro a b ha hb
    induction a with
    | nil =>
      cases b with
      | nil => exact ⟨rfl, rfl⟩
      | cons c b => simp [List.takeWhile_cons, List.dropWhile_cons, hb c rfl]
    | cons c a ih =>
      obtain ⟨h1, h2⟩ := ih (fun x hx => ha x (List.mem_cons_of_mem _ hx))
      simp [List.takeWhile_cons, List.dropWhile_cons, ha c (by simp), h1, h2]
  unfold splitOnce lstrip
  have e1 : (sp ++ w ++ sp2 ++ rel).dropWhile pySpace = w ++ (sp2 ++ rel) := by
    rw [List.append_assoc, List.append_assoc]
    refine hdrop sp _ hs ?_
    intro c hc
    cases w with
    | nil => exact absurd rfl hw.1
    | cons x w => simp at hc; subst hc; exact hw.2 _ (by simp)
  obtain ⟨h1, h2⟩ := htake w (sp2 ++ rel) hw.2 (by
    intro c hc
    cases hsp : sp2 with
    | nil => exact absurd hsp hs2.1
    | cons x y => rw [hsp] at hc; simp at hc; subst hc; exact hs2.2 _ (by rw [hsp]; simp))
  simp only [e1, h1, h2, hdrop sp2 rel hs2.2 hr]
  have hne : w ++ (sp2 ++ rel) ≠ [] := by
    cases w with
    | nil => exact absurd rfl hw.1
    | cons x w => simp
  rw [if_neg hne, if_neg hrn]

/-- C71. A line of `mask_list.txt` is an image name, white space, and the path of its mask, in which spaces
are allowed; a later line for the same image wins. -/
theorem C71_mask_line (dataPath : Name) (m : Dict Name Name) (sp w sp2 rel : List Char)
    (hs : ∀ c ∈ sp, pySpace c = true) (hw : w ≠ [] ∧ ∀ c ∈ w, pySpace c = false)
    (hs2 : sp2 ≠ [] ∧ ∀ c ∈ sp2, pySpace c = true)
    (hr : ∀ c, rel.head? = some c → pySpace c = false)
    (hr2 : ∀ c, rel.getLast? = some c → pySpace c = false) (hrn : rel ≠ []) :
    addMaskLine dataPath m (sp ++ w ++ sp2 ++ rel) = some (m.set w (join dataPath rel)) := by
  have hstrip : ∀ a : List Char, a ≠ [] → (∀ c, a.head? = some c → pySpace c = false) →
      (∀ c, a.getLast? = some c → pySpace c = false) → strip a = a := by
    intro a hne h1 h2
    have hl : lstrip a = a := by
      unfold lstrip
      cases a with
      | nil => rfl
      | cons c a => simp [List.dropWhile_cons, h1 c rfl]
    unfold strip rstrip
    rw [hl]
    have : a.reverse.dropWhile pySpace = a.reverse := by
      cases hrev : a.reverse with
      | nil => rfl
      | cons c b =>
        have : a.getLast? = some c := by
          rw [← List.head?_reverse, hrev]; rfl
        simp [List.dropWhile_cons, h2 c this]
    rw [this, List.reverse_reverse]
  unfold addMaskLine
  rw [splitOnce_words sp w sp2 rel hs hw hs2 hr hrn]
  simp only
  rw [hstrip w hw.1 _ _, hstrip rel hrn hr hr2]
  · intro c hc; exact hw.2 c (List.mem_of_mem_head? hc)
  · intro c hc; exact hw.2 c (List.mem_of_mem_getLast? hc)

/-- C71. An empty line in the mask list keeps the dataset from being opened. -/
theorem C71_mask_blank (dataPath : Name) (l1 l2 : List (List Char)) (sp : List Char)
    (hs : ∀ c ∈ sp, pySpace c = true) : setMaskList dataPath (l1 ++ sp :: l2) = none := by
  have hone : ∀ m, addMaskLine dataPath m sp = none := by
    intro m
    have : splitOnce sp = [] := by
      unfold splitOnce lstrip
      have : sp.dropWhile pySpace = [] := by
        induction sp with
        | nil => rfl
        | cons c sp ih =>
          rw [List.dropWhile_cons, if_pos (hs c (by simp))]
          exact ih (fun x hx => hs x (List.mem_cons_of_mem _ hx))
      simp [this]
    unfold addMaskLine
    rw [this]
  unfold setMaskList
  rw [List.foldlM_append]
  cases l1.foldlM (addMaskLine dataPath) [] with
  | none => rfl
  | some m =>
    show List.foldlM (addMaskLine dataPath) m (sp :: l2) = none
    rw [List.foldlM_cons, hone]
    rfl

/-! ### C72: subsets -/

/-- C72. Making a subset in a folder without images fails. -/
theorem C72_fresh_fails (ex : Name → Bool) (d : Data) (segFile : Name → Name) (subPath : Name)
    (hp : subPath ≠ []) (sub : Folder) (hl : sub.imageList = none)
    (hi : ∀ m, sub.images = some m → ∀ k ∈ m.keys, isImageFile k = false)
    (others : Dict Name Name) (images : List Name) :
    subset ex d segFile subPath sub others images = none := by
  have h : loadImageList subPath (mkdirs sub) = none := by
    rw [C71_no_images subPath hp]
    right
    refine ⟨hl, ?_⟩
    intro m hm
    unfold mkdirs at hm
    simp only [Option.some.injEq] at hm
    subst hm
    cases hsi : sub.images with
    | none => intro k hk; simp at hk
    | some m => simpa using hi m hsi
  unfold subset openDataset
  simp only [h, Option.bind_none]

/-- C72, C69. Hence every round of rig calibration, which first removes the folder, fails. -/
theorem C72_calibration_fails (ex : Name → Bool) (d : Data) (segFile : Name → Name) (subPath : Name)
    (hp : subPath ≠ []) (others : Dict Name Name) (images : List Name) :
    calibrationRound ex d segFile subPath others images = none :=
  C72_fresh_fails ex d segFile subPath hp emptyFolder rfl (fun m hm => by cases hm) others images

theorem linkImage_images (ex : Name → Bool) (d : Data) (segFile : Name → Name) (images : List Name)
    (f f' : Folder) (h : images.foldlM (linkImage ex d segFile) f = some f') :
    f'.imageList = f.imageList ∧ f'.maskList = f.maskList ∧
    (∀ im ∈ images, (d.imageFiles.get? im).isSome) ∧
    (∀ m, f.images = some m → m.Wf → ∃ m', f'.images = some m' ∧ m'.Wf ∧
      ∀ k, m'.get? k = match d.imageFiles.get? k with
        | some s => if k ∈ images ∧ ex s = true then some s else m.get? k
        | none => m.get? k) := by
  induction images generalizing f with
  | nil =>
    have : f = f' := Option.some.inj h
    subst this
    refine ⟨rfl, rfl, by simp, fun m hm hw => ⟨m, hm, hw, fun k => ?_⟩⟩
    cases d.imageFiles.get? k <;> simp
  | cons a l ih =>
    rw [List.foldlM_cons] at h
    cases hs : d.imageFiles.get? a with
    | none =>
      have : linkImage ex d segFile f a = none := by unfold linkImage; rw [hs]; rfl
      rw [this] at h
      cases h
    | some s =>
      have hstep : ∃ f1, linkImage ex d segFile f a = some f1 ∧ f1.imageList = f.imageList ∧
          f1.maskList = f.maskList ∧ f1.images = relink ex f.images a s := by
        unfold linkImage
        rw [hs]
        simp only [Option.map_some]
        cases hm : d.maskFiles.get? a with
        | none => exact ⟨_, rfl, rfl, rfl, rfl⟩
        | some mk => exact ⟨_, rfl, rfl, rfl, rfl⟩
      obtain ⟨f1, e1, e2, e3, e4⟩ := hstep
      rw [e1] at h
      obtain ⟨i1, i2, i3, i4⟩ := ih f1 h
      refine ⟨i1.trans e2, i2.trans e3, ?_, ?_⟩
      · intro im him
        rcases List.mem_cons.1 him with rfl | him
        · rw [hs]; rfl
        · exact i3 im him
      · intro m hm hw
        rw [hm] at e4
        unfold relink at e4
        by_cases hex : ex s = true
        · rw [if_pos hex] at e4
          obtain ⟨m', j1, j2, j3⟩ := i4 _ e4 (Dict.wf_set hw _ _)
          refine ⟨m', j1, j2, ?_⟩
          intro k
          rw [j3]
          simp only [Option.getD_some, Dict.get?_set]
          by_cases hak : a = k
          · subst hak
            rw [hs]
            simp [hex]
          · cases hk : d.imageFiles.get? k with
            | none => simp [hak]
            | some t => simp [hak, Ne.symm hak]
        · rw [if_neg hex] at e4
          obtain ⟨m', j1, j2, j3⟩ := i4 m e4 hw
          refine ⟨m', j1, j2, ?_⟩
          intro k
          rw [j3]
          by_cases hak : a = k
          · subst hak
            rw [hs]
            simp [hex]
          · cases hk : d.imageFiles.get? k with
            | none => rfl
            | some t => simp [Ne.symm hak]

/-- C72. If the folder of the subset already has an image, the subset is made, but the images that were there
before stay part of it: its images are the requested ones with a source, and the earlier ones. -/
theorem C72_keeps_earlier (ex : Name → Bool) (d : Data) (segFile : Name → Name) (subPath : Name)
    (sub : Folder) (hl : sub.imageList = none) (m : Dict Name Name) (hm : sub.images = some m) (hw : m.Wf)
    (others : Dict Name Name) (images : List Name) (f' : Folder) (r : Data)
    (h : subset ex d segFile subPath sub others images = some (f', r)) (im : Name) :
    im ∈ r.images ↔ isImageFile im = true ∧
      (im ∈ m.keys ∨ (im ∈ images ∧ ∃ s, d.imageFiles.get? im = some s ∧ ex s = true)) := by
  unfold subset at h
  simp only at h
  cases ho : openDataset subPath (mkdirs sub) with
  | none => rw [ho] at h; cases h
  | some r0 =>
    rw [ho] at h
    simp only [Option.bind_some] at h
    cases hf : images.foldlM (linkImage ex d segFile)
        { mkdirs sub with others := others.filterKV (fun _ s => ex s) } with
    | none => rw [hf] at h; cases h
    | some f1 =>
      rw [hf] at h
      simp only [Option.bind_some] at h
      cases hr : openDataset subPath f1 with
      | none => rw [hr] at h; cases h
      | some r1 =>
        rw [hr] at h
        simp only [Option.map_some, Option.some.injEq, Prod.mk.injEq] at h
        obtain ⟨rfl, rfl⟩ := h
        obtain ⟨i1, i2, i3, i4⟩ := linkImage_images ex d segFile images _ f1 hf
        obtain ⟨m', j1, j2, j3⟩ := i4 m (by simp [mkdirs, hm]) hw
        have hil : f1.imageList = none := i1.trans hl
        unfold openDataset at hr
        cases hli : loadImageList subPath f1 with
        | none => rw [hli] at hr; cases hr
        | some q =>
          rw [hli] at hr
          simp only [Option.bind_some] at hr
          cases hlm : loadMaskList subPath q.1 f1 with
          | none => rw [hlm] at hr; cases hr
          | some mm =>
            rw [hlm] at hr
            simp only [Option.map_some, Option.some.injEq] at hr
            obtain ⟨k1, -, -⟩ := C71_folder subPath f1 hil m' j1 j2 q hli
            have hri : r1.images = q.1 := by rw [← hr]
            rw [hri, k1, List.mem_filter, and_comm]
            refine and_congr_right (fun _ => ?_)
            rw [Dict.mem_keys_iff, j3, Dict.mem_keys_iff]
            cases hk : d.imageFiles.get? im with
            | none => simp
            | some s =>
              by_cases hc : im ∈ images ∧ ex s = true
              · simp [hc]
              · simp only [hc, if_false, Option.some.injEq, exists_eq_left']
                tauto

/-! ### The hypotheses are met -/

example : (openDataset "d".toList ⟨none, some [("b.JPG".toList, []), ("x.txt".toList, [])], none,
    some [("b.JPG.png".toList, [])], none, []⟩).map (fun r => (r.images, r.maskFiles)) =
    some (["b.JPG".toList], [("b.JPG".toList, "d/masks/b.JPG.png".toList)]) := by
  decide +kernel

example : ((subset (fun _ => true) ⟨["a.jpg".toList], [("a.jpg".toList, "d/images/a.jpg".toList)], []⟩ id
    "d/s".toList ⟨none, some [("old.jpg".toList, [])], none, none, none, []⟩ [] ["a.jpg".toList]).map
      (fun r => r.2.images)) = some ["old.jpg".toList, "a.jpg".toList] := by
  decide +kernel

end Verif.DatasetFiles
