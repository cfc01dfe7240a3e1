import Verif.Model.Rig
import Mathlib.Data.List.Nodup
import Mathlib.Data.List.Perm.Basic
import Mathlib.Data.List.Range
import Mathlib.Tactic.Linarith
import Mathlib.Tactic.Ring

/-!
# C55, C56, C69: rig instances from file names, rig assignments, rig calibration
-/
set_option linter.unusedSectionVars false
set_option linter.unusedSimpArgs false
namespace Verif.Rig

/-! ### C55 -/

/-- C55. An image belongs to the rig camera of the first pattern, in the order given, that removes some but not
all of its name; what remains is the instance. -/
theorem C55_first_pattern (sub : String → String → String) (patterns : Dict String String)
    (image c m : String) :
    findImageRig sub image patterns = some (c, m) ↔
      ∃ l1 p l2, patterns = l1 ++ (c, p) :: l2 ∧ sub p image = m ∧ m ≠ "" ∧ m ≠ image ∧
        ∀ q ∈ l1, sub q.2 image = "" ∨ sub q.2 image = image := by
  induction patterns with
  | nil => simp [findImageRig]
  | cons q rest ih =>
    obtain ⟨cam, pat⟩ := q
    unfold findImageRig
    by_cases h1 : sub pat image = ""
    · rw [if_pos h1, ih]
      constructor
      · rintro ⟨l1, p, l2, rfl, h2, h3, h4, h5⟩
        refine ⟨(cam, pat) :: l1, p, l2, rfl, h2, h3, h4, ?_⟩
        intro q hq
        rcases List.mem_cons.1 hq with rfl | hq
        · exact Or.inl h1
        · exact h5 q hq
      · rintro ⟨l1, p, l2, he, h2, h3, h4, h5⟩
        cases l1 with
        | nil => cases he; exact absurd (h2 ▸ h1) h3
        | cons q l1 =>
          cases he
          exact ⟨l1, p, l2, rfl, h2, h3, h4, fun q hq => h5 q (List.mem_cons_of_mem _ hq)⟩
    · rw [if_neg h1]
      by_cases h2 : sub pat image = image
      · rw [if_neg (not_not.2 h2), ih]
        constructor
        · rintro ⟨l1, p, l2, rfl, h3, h4, h5, h6⟩
          refine ⟨(cam, pat) :: l1, p, l2, rfl, h3, h4, h5, ?_⟩
          intro q hq
          rcases List.mem_cons.1 hq with rfl | hq
          · exact Or.inr h2
          · exact h6 q hq
        · rintro ⟨l1, p, l2, he, h3, h4, h5, h6⟩
          cases l1 with
          | nil => cases he; exact absurd (h3 ▸ h2) h5
          | cons q l1 =>
            cases he
            exact ⟨l1, p, l2, rfl, h3, h4, h5, fun q hq => h6 q (List.mem_cons_of_mem _ hq)⟩
      · rw [if_pos h2]
        constructor
        · intro h
          cases h
          exact ⟨[], pat, rest, rfl, rfl, h1, h2, by simp⟩
        · rintro ⟨l1, p, l2, he, h3, h4, h5, h6⟩
          cases l1 with
          | nil => cases he; rw [h3]
          | cons q l1 =>
            cases he
            rcases h6 (cam, pat) List.mem_cons_self with h | h
            · exact absurd h h1
            · exact absurd h h2

theorem perInstance_eq (sub : String → String → String) (patterns : Dict String String)
    (images : List String) : perInstance sub patterns images =
      Dict.groupBy (fun p : String × String => (label sub patterns p.1).1)
        (images.map (fun im => (im, (label sub patterns im).2))) := by
  unfold perInstance Dict.groupBy
  rw [List.foldl_map]

theorem collect_fold (d : Dict String Instance) (hd : d.Wf) (r : Dict String Instance) (s : List String)
    (hr : ∀ k ∈ d.keys, r.get? k = none) :
    d.foldl collect (r, s) = (r ++ d.filterKV (fun k _ => k ≠ incompleteGroup),
      s ++ ((d.get? incompleteGroup).getD []).map Prod.fst) := by
  induction d generalizing r s with
  | nil => simp [Dict.filterKV]
  | cons q d ih =>
    obtain ⟨k, v⟩ := q
    have hnd := List.nodup_cons.1 hd
    have hwd : Dict.Wf d := hnd.2
    have hkd : Dict.get? d k = none := by rw [Dict.get?_eq_none_iff]; exact hnd.1
    rw [List.foldl_cons]
    by_cases hk : k = incompleteGroup
    · have hcol : collect (r, s) (k, v) = (r, s ++ v.map Prod.fst) := by simp [collect, hk]
      rw [hcol]
      rw [ih hwd _ _ (fun k' hk' => hr k' (List.mem_cons_of_mem _ hk'))]
      rw [hk] at hkd
      rw [hkd]
      simp [Dict.filterKV, Dict.get?, hk]
    · have hcol : collect (r, s) (k, v) = (Dict.set r k v, s) := by simp [collect, hk]
      rw [hcol]
      have hset : Dict.set r k v = r ++ [(k, v)] := by
        have hn := hr k (by simp [Dict.keys])
        clear ih hr hcol
        induction r with
        | nil => rfl
        | cons p r ihr =>
          obtain ⟨a, b⟩ := p
          by_cases ha : a = k
          · simp [Dict.get?, ha] at hn
          · simp only [Dict.get?, ha, if_false] at hn
            simp [Dict.set, ha, ihr hn]
      rw [hset, ih hwd]
      · simp [Dict.filterKV, Dict.get?, hk]
      · intro k' hk'
        have hne : k ≠ k' := by rintro rfl; exact hnd.1 hk'
        have := hr k' (List.mem_cons_of_mem _ hk')
        rw [Dict.get?_eq_none_iff] at this ⊢
        simp only [Dict.keys, List.map_append, List.mem_append, List.map_cons, List.map_nil,
          List.mem_singleton] at this ⊢
        rintro (h | h)
        · exact this h
        · exact hne h.symm

theorem createInstances_eq (sub : String → String → String) (images : List String)
    (patterns : Dict String String) : createInstances sub images patterns =
      ((perInstance sub patterns images).filterKV (fun k _ => k ≠ incompleteGroup),
        (((perInstance sub patterns images).get? incompleteGroup).getD []).map Prod.fst) := by
  unfold createInstances
  rw [collect_fold _ (by rw [perInstance_eq]; exact Dict.wf_groupBy _ _) [] [] (by simp)]
  simp

/-- C55. The instances and the single shots together hold every image exactly as often as it is listed. -/
theorem C55_partition (sub : String → String → String) (images : List String)
    (patterns : Dict String String) :
    (((createInstances sub images patterns).1.vals.flatten.map Prod.fst) ++
      (createInstances sub images patterns).2).Perm images := by
  rw [createInstances_eq]
  simp only
  have hwf : (perInstance sub patterns images).Wf := by rw [perInstance_eq]; exact Dict.wf_groupBy _ _
  have hp : ((perInstance sub patterns images).vals.flatten.map Prod.fst).Perm images := by
    rw [perInstance_eq]
    have := (Dict.perm_flatten_groupBy (fun p : String × String => (label sub patterns p.1).1)
        (images.map (fun im => (im, (label sub patterns im).2)))).map Prod.fst
    rwa [List.map_map, show (Prod.fst ∘ fun im => (im, (label sub patterns im).2)) = id from rfl,
      List.map_id] at this
  refine List.Perm.trans ?_ hp
  generalize perInstance sub patterns images = d at hwf
  clear hp
  induction d with
  | nil => simp [Dict.filterKV, Dict.vals]
  | cons q d ih =>
    obtain ⟨k, v⟩ := q
    have hnd := List.nodup_cons.1 hwf
    have hwd : Dict.Wf d := hnd.2
    have ih' := ih hwd
    by_cases hk : k = incompleteGroup
    · have hkd : Dict.get? d incompleteGroup = none := by
        rw [Dict.get?_eq_none_iff, ← hk]; exact hnd.1
      rw [hkd] at ih'
      simp only [Dict.filterKV, List.filter_cons, hk, ne_eq, not_true_eq_false, decide_false,
        Bool.false_eq_true, if_false, Dict.get?, if_true, Option.getD_some, Dict.vals, List.map_cons,
        List.flatten_cons, List.map_append] at ih' ⊢
      refine List.perm_append_comm.trans ?_
      refine List.Perm.append_left _ ?_
      simpa using ih'
    · simp only [Dict.filterKV, List.filter_cons, hk, ne_eq, not_false_eq_true, decide_true, if_true,
        Dict.get?, if_false, Dict.vals, List.map_cons, List.flatten_cons, List.map_append,
        List.append_assoc] at ih' ⊢
      exact List.Perm.append_left _ ih'

/-- C55. An instance is the list, in the order of the images, of the images with that remainder, each with
its rig camera; it exists exactly when there is such an image. -/
theorem C55_instance (sub : String → String → String) (images : List String)
    (patterns : Dict String String) (hc : ∀ q ∈ patterns, q.1 ≠ "") (m : String)
    (hm : m ≠ incompleteGroup) :
    let members := images.filterMap (fun im => match findImageRig sub im patterns with
      | some (c, m') => if m' = m then some (im, c) else none
      | none => none)
    (createInstances sub images patterns).1.get? m = if members = [] then none else some members := by
  intro members
  have hwf : (perInstance sub patterns images).Wf := by rw [perInstance_eq]; exact Dict.wf_groupBy _ _
  rw [createInstances_eq]
  simp only
  rw [Dict.get?_filterKV hwf]
  have hlab : ∀ im, ((label sub patterns im).1 = m ∧ True →
      ∃ c, findImageRig sub im patterns = some (c, m) ∧ (label sub patterns im).2 = c) ∧
      (∀ c, findImageRig sub im patterns = some (c, m) → label sub patterns im = (m, c)) := by
    intro im
    constructor
    · rintro ⟨h, -⟩
      unfold label at h ⊢
      split at h
      · exact absurd h.symm hm
      · rename_i c m' hf
        split at h
        · exact absurd h.symm hm
        · rename_i hne
          simp only at h
          subst h
          simp [hf, hne]
    · intro c hf
      obtain ⟨l1, p, l2, hp, -, h3, -, -⟩ := (C55_first_pattern sub patterns im c m).1 hf
      have hcne := hc (c, p) (by rw [hp]; simp)
      unfold label
      simp only [hf]
      rw [if_neg (by rintro (h | h); exacts [hcne h, h3 h])]
  have hmem : (images.map (fun im => (im, (label sub patterns im).2))).filter
      (fun p => (label sub patterns p.1).1 = m) = members := by
    show _ = images.filterMap _
    clear_value members
    induction images with
    | nil => rfl
    | cons im images ih =>
      rw [List.map_cons, List.filter_cons, List.filterMap_cons, ih]
      · by_cases h : (label sub patterns im).1 = m
        · obtain ⟨c, hf, hl⟩ := (hlab im).1 ⟨h, trivial⟩
          simp [h, hf, hl]
        · have hno : ∀ c, findImageRig sub im patterns ≠ some (c, m) := by
            intro c hf
            have := (hlab im).2 c hf
            rw [this] at h
            exact h rfl
          simp only [h, decide_false, Bool.false_eq_true, if_false]
          split
          · rfl
          · rename_i b hb
            exfalso
            split at hb
            · rename_i c m' hf
              split at hb
              · rename_i he; subst he; exact hno c hf
              · cases hb
            · cases hb
      · rw [perInstance_eq]; exact Dict.wf_groupBy _ _
  rw [perInstance_eq, Dict.get?_groupBy, hmem]
  by_cases h : members = []
  · simp [h]
  · simp [h, hm]

/-- C55. The other images are the single shots, in order. -/
theorem C55_single (sub : String → String → String) (images : List String)
    (patterns : Dict String String) (hc : ∀ q ∈ patterns, q.1 ≠ "")
    (hinc : ∀ im ∈ images, ∀ c, findImageRig sub im patterns ≠ some (c, incompleteGroup)) :
    (createInstances sub images patterns).2 =
      images.filter (fun im => (findImageRig sub im patterns).isNone) := by
  rw [createInstances_eq]
  simp only
  rw [perInstance_eq, Dict.get?_groupBy]
  have hmem : ((images.map (fun im => (im, (label sub patterns im).2))).filter
      (fun p => (label sub patterns p.1).1 = incompleteGroup)).map Prod.fst =
      images.filter (fun im => (findImageRig sub im patterns).isNone) := by
    rw [List.filter_map, List.map_map,
      show (Prod.fst ∘ fun im => (im, (label sub patterns im).2)) = id from rfl, List.map_id]
    refine List.filter_congr ?_
    intro im him
    simp only [Function.comp]
    cases hf : findImageRig sub im patterns with
    | none => simp [label, hf]
    | some q =>
      obtain ⟨c, m⟩ := q
      obtain ⟨l1, p, l2, hp, -, h3, -, -⟩ := (C55_first_pattern sub patterns im c m).1 hf
      have hcne := hc (c, p) (by rw [hp]; simp)
      have hne : m ≠ incompleteGroup := by rintro rfl; exact hinc im him c hf
      simp only [label, hf]
      rw [if_neg (by rintro (h | h); exacts [hcne h, h3 h])]
      simp [hne]
  split
  · rename_i h
    rw [← hmem, h]
    rfl
  · rw [← hmem]
    rfl

/-- C55. Nothing keeps two images of one instance from having the same rig camera. -/
theorem C55_camera_twice :
    ∃ (sub : String → String → String) (patterns : Dict String String),
      (createInstances sub ["1_L", "1_l"] patterns).1 = [("1_", [("1_L", "left"), ("1_l", "left")])] := by
  refine ⟨fun p s => if p = "[Ll]" then String.ofList (s.toList.filter (fun c => c ≠ 'L' ∧ c ≠ 'l')) else s,
    [("left", "[Ll]")], ?_⟩
  decide +kernel

/-! ### C56 -/

theorem foldl_set_get {V : Type} (l : List (String × V)) (m : Dict String V) (k : String) :
    (l.foldl (fun m q => Dict.set m q.1 q.2) m).get? k =
      match Dict.get? l.reverse k with
      | some v => some v
      | none => m.get? k := by
  induction l generalizing m with
  | nil => rfl
  | cons q l ih =>
    have happ : ∀ (a : List (String × V)), Dict.get? (a ++ [q]) k =
        match Dict.get? a k with
        | some v => some v
        | none => if q.1 = k then some q.2 else none := by
      intro a
      induction a with
      | nil => simp [Dict.get?]
      | cons p a iha =>
        obtain ⟨x, y⟩ := p
        by_cases hx : x = k
        · simp [Dict.get?, hx]
        · simp [Dict.get?, hx, iha]
    rw [List.foldl_cons, ih, List.reverse_cons, happ, Dict.get?_set]
    cases Dict.get? l.reverse k with
    | some v => rfl
    | none => by_cases hq : q.1 = k <;> simp [hq]

/-- All (image, entry) pairs in the order they are stored. -/
def entries (assignments : Dict String Instance) : List (String × Entry) :=
  (assignments.map (fun q => q.2.map (fun p => (p.1, (q.1, p.2, q.2.map Prod.fst))))).flatten

theorem perImage_eq (assignments : Dict String Instance) :
    perImage assignments = (entries assignments).foldl (fun m q => Dict.set m q.1 q.2) [] := by
  unfold perImage entries
  generalize ([] : Dict String Entry) = m
  induction assignments generalizing m with
  | nil => rfl
  | cons q l ih =>
    rw [List.foldl_cons, ih, List.map_cons, List.flatten_cons, List.foldl_append]
    congr 1
    unfold addInstance
    rw [List.foldl_map]

/-- C56. What is found for an image is an instance that contains it, with the rig camera it has there and all
images of that instance. -/
theorem C56_sound (assignments : Dict String Instance) (im i c : String) (l : List String)
    (h : (perImage assignments).get? im = some (i, c, l)) :
    ∃ g, (i, g) ∈ assignments ∧ (im, c) ∈ g ∧ l = g.map Prod.fst := by
  rw [perImage_eq, foldl_set_get] at h
  have h' : Dict.get? (entries assignments).reverse im = some (i, c, l) := by
    cases hg : Dict.get? (entries assignments).reverse im with
    | some v => rw [hg] at h; exact h
    | none => rw [hg] at h; cases h
  have hm := Dict.mem_of_get? h'
  rw [List.mem_reverse] at hm
  unfold entries at hm
  obtain ⟨l', hl', hm⟩ := List.mem_flatten.1 hm
  obtain ⟨q, hq, rfl⟩ := List.mem_map.1 hl'
  obtain ⟨p, hp, he⟩ := List.mem_map.1 hm
  cases he
  exact ⟨q.2, hq, hp, rfl⟩

/-- C56. Every assigned image is found. -/
theorem C56_complete (assignments : Dict String Instance) (im i c : String) (g : Instance)
    (hi : (i, g) ∈ assignments) (hg : (im, c) ∈ g) : ((perImage assignments).get? im).isSome := by
  rw [perImage_eq, foldl_set_get]
  have hm : (im, (i, c, g.map Prod.fst)) ∈ (entries assignments).reverse := by
    rw [List.mem_reverse]
    exact List.mem_flatten.2 ⟨_, List.mem_map.2 ⟨_, hi, rfl⟩, List.mem_map.2 ⟨_, hg, rfl⟩⟩
  have := Dict.get?_isSome_of_mem hm
  cases hgg : Dict.get? (entries assignments).reverse im with
  | some v => rfl
  | none => rw [hgg] at this; cases this

/-- C56. If no image is assigned twice, the entry of an image is the one of its instance. -/
theorem C56_exact (assignments : Dict String Instance)
    (hd : ((assignments.map (fun q => q.2.map Prod.fst)).flatten).Nodup) (im i c : String) (g : Instance)
    (hi : (i, g) ∈ assignments) (hg : (im, c) ∈ g) :
    (perImage assignments).get? im = some (i, c, g.map Prod.fst) := by
  have hk : (entries assignments).map Prod.fst = (assignments.map (fun q => q.2.map Prod.fst)).flatten := by
    unfold entries
    rw [List.map_flatten, List.map_map]
    congr 1
    refine List.map_congr_left ?_
    intro q _
    simp [Function.comp_def]
  have hwf : Dict.Wf (entries assignments).reverse := by
    unfold Dict.Wf Dict.keys
    rw [List.map_reverse, List.nodup_reverse, hk]
    exact hd
  rw [perImage_eq, foldl_set_get]
  have hm : (im, (i, c, g.map Prod.fst)) ∈ (entries assignments).reverse := by
    rw [List.mem_reverse]
    exact List.mem_flatten.2 ⟨_, List.mem_map.2 ⟨_, hi, rfl⟩, List.mem_map.2 ⟨_, hg, rfl⟩⟩
  rw [Dict.get?_of_mem hwf hm]

/-- C56. If an image is assigned twice the later instance wins. -/
theorem C56_last_wins (l1 l2 : Dict String Instance) (i im c : String) (g g1 g2 : Instance)
    (hg : g = g1 ++ (im, c) :: g2) (h1 : ∀ p ∈ g2, p.1 ≠ im) (h2 : ∀ q ∈ l2, ∀ p ∈ q.2, p.1 ≠ im) :
    (perImage (l1 ++ (i, g) :: l2)).get? im = some (i, c, g.map Prod.fst) := by
  rw [perImage_eq, foldl_set_get]
  have he : entries (l1 ++ (i, g) :: l2) =
      (entries l1 ++ g1.map (fun p => (p.1, (i, p.2, g.map Prod.fst)))) ++
        (im, (i, c, g.map Prod.fst)) ::
          (g2.map (fun p => (p.1, (i, p.2, g.map Prod.fst))) ++ entries l2) := by
    unfold entries
    rw [List.map_append, List.flatten_append, List.map_cons, List.flatten_cons]
    simp only
    conv_lhs => rw [hg]
    rw [List.map_append, List.map_cons, ← hg]
    simp
  have hrest : Dict.get? (g2.map (fun p => (p.1, ((i, p.2, g.map Prod.fst) : Entry))) ++ entries l2).reverse im
      = none := by
    rw [Dict.get?_eq_none_iff]
    unfold Dict.keys
    rw [List.map_reverse, List.mem_reverse, List.map_append, List.mem_append, List.map_map]
    rintro (h | h)
    · obtain ⟨p, hp, he⟩ := List.mem_map.1 h
      exact h1 p hp he
    · unfold entries at h
      rw [List.map_flatten, List.map_map] at h
      obtain ⟨l, hl, hm⟩ := List.mem_flatten.1 h
      obtain ⟨q, hq, rfl⟩ := List.mem_map.1 hl
      simp only [Function.comp, List.map_map] at hm
      obtain ⟨p, hp, he⟩ := List.mem_map.1 hm
      exact h2 q hq p hp he
  have happ : ∀ (a b : List (String × Entry)), Dict.get? a im = none →
      Dict.get? (a ++ b) im = Dict.get? b im := by
    intro a b ha
    induction a with
    | nil => rfl
    | cons p a iha =>
      obtain ⟨x, y⟩ := p
      by_cases hx : x = im
      · simp [Dict.get?, hx] at ha
      · simp only [Dict.get?, hx, if_false] at ha
        simp [Dict.get?, hx, iha ha]
  rw [he, List.reverse_append, List.reverse_cons, List.append_assoc, happ _ _ hrest]
  simp [Dict.get?]

theorem pyStr_inj (i j : Nat) (h : pyStr i = pyStr j) : i = j := by
  unfold pyStr at h
  have h' : Text.fmtNat i = Text.fmtNat j := by
    have := congrArg String.toList h
    simpa using this
  have h1 := PyText.pyInt_fmtNat i (sp := []) (tl := []) (by simp) (by simp)
  have h2 := PyText.pyInt_fmtNat j (sp := []) (tl := []) (by simp) (by simp)
  rw [h', h2] at h1
  simpa using h1.symm

/-- C56. An assignments file in the old format, a list of instances, gives every instance its position as name. -/
theorem C56_old_format (l : List Instance) (i : Nat) :
    (loadAssignments (some (.list l))).get? (pyStr i) = l[i]? := by
  unfold loadAssignments
  have key : ∀ (l : List Instance) (n : Nat) (m : Dict String Instance) (j : Nat),
      ((l.zipIdx n).foldl (fun m q => Dict.set m (pyStr q.2) q.1) m).get? (pyStr j) =
        if n ≤ j ∧ j < n + l.length then l[j - n]? else m.get? (pyStr j) := by
    intro l
    induction l with
    | nil => intro n m j; simp
    | cons a l ih =>
      intro n m j
      rw [List.zipIdx_cons, List.foldl_cons, ih]
      by_cases hj : n + 1 ≤ j ∧ j < n + 1 + l.length
      · rw [if_pos hj, if_pos (by simp; omega)]
        obtain ⟨k, rfl⟩ : ∃ k, j = n + 1 + k := ⟨j - (n + 1), by omega⟩
        rw [show n + 1 + k - (n + 1) = k by omega, show n + 1 + k - n = k + 1 by omega]
        rfl
      · rw [if_neg hj, Dict.get?_set]
        by_cases hn : n = j
        · subst hn
          simp
        · rw [if_neg (fun h => hn (pyStr_inj _ _ h)), if_neg (by simp; omega)]
  rw [key l 0 [] i]
  simp only [Nat.zero_le, Nat.zero_add, true_and, Nat.sub_zero]
  split
  · rfl
  · rename_i h
    rw [List.getElem?_eq_none (by omega)]
    rfl

/-- C56. The rig cameras are those of the file, and for the other camera models the default one. -/
theorem C56_rig_cameras {R : Type} (dflt : String → R) (cameras : List String) (f : Dict String R)
    (hf : f.Wf) (k : String) :
    (loadRigCameras dflt cameras (some f)).get? k = match f.get? k with
      | some r => some r
      | none => if k ∈ cameras then some (dflt k) else none := by
  unfold loadRigCameras
  simp only
  rw [foldl_set_get]
  have hrev : Dict.get? f.reverse k = f.get? k := by
    cases hfk : f.get? k with
    | none =>
      rw [Dict.get?_eq_none_iff] at hfk ⊢
      unfold Dict.keys at hfk ⊢
      rw [List.map_reverse, List.mem_reverse]
      exact hfk
    | some v =>
      refine Dict.get?_of_mem ?_ (List.mem_reverse.2 (Dict.mem_of_get? hfk))
      unfold Dict.Wf Dict.keys at hf ⊢
      rw [List.map_reverse, List.nodup_reverse]
      exact hf
  rw [hrev]
  cases f.get? k with
  | some r => rfl
  | none =>
    simp only
    have : ∀ m : Dict String R, (cameras.foldl (fun m k => Dict.set m k (dflt k)) m).get? k =
        if k ∈ cameras then some (dflt k) else m.get? k := by
      induction cameras with
      | nil => intro m; simp
      | cons a l ih =>
        intro m
        rw [List.foldl_cons, ih, Dict.get?_set]
        by_cases h : k ∈ l
        · simp [h]
        · by_cases ha : a = k
          · subst ha; simp
          · simp [h, ha, Ne.symm ha]
    rw [this]
    simp

/-! ### C69 -/

/-- C69. A round of calibration uses consecutive instances, at most `subset_size` of them. -/
theorem C69_window {α : Type} (l : List α) (r size : Nat) :
    (window l r size).IsInfix l ∧ (window l r size).length ≤ size := by
  unfold window
  refine ⟨(List.drop_suffix _ _).isInfix.trans (List.take_prefix _ _).isInfix, ?_⟩
  rw [List.length_drop, List.length_take]
  omega

/-- C69. No round of calibration ever uses the last instance in time. -/
theorem C69_last_never {α : Type} (l : List α) (x : α) (r size : Nat) (hx : x ∉ l) :
    x ∉ window (l ++ [x]) r size := by
  unfold window
  simp only [List.length_append, List.length_singleton, Nat.add_sub_cancel]
  intro h
  have h1 := List.mem_of_mem_drop h
  rw [List.take_append_of_le_length (min_le_right _ _)] at h1
  exact hx (List.mem_of_mem_take h1)

/-- C69. The other instances up to half the size away from the chosen one are used. -/
theorem C69_window_has {α : Type} (l : List α) (r size i : Nat) (hi : i + 1 < l.length)
    (h1 : r ≤ i + size / 2) (h2 : i < r + size / 2) : ∃ x, l[i]? = some x ∧ x ∈ window l r size := by
  refine ⟨l[i], by simp, ?_⟩
  unfold window
  rw [List.mem_iff_getElem]
  have hlen : i - (r - size / 2) <
      ((List.take (min (r + size / 2) (l.length - 1)) l).drop (r - size / 2)).length := by
    rw [List.length_drop, List.length_take]; omega
  refine ⟨i - (r - size / 2), hlen, ?_⟩
  rw [List.getElem_drop, List.getElem_take]
  congr 1
  omega

theorem countInit_spec (instances : List Instance) (n : Nat) (m : Dict String Nat) (c : Dict Nat Int) :
    (instances.zipIdx n).foldl (fun r q =>
      (q.1.foldl (fun m p => Dict.set m p.1 q.2) r.1, Dict.set r.2 q.2 (q.1.length : Int))) (m, c) =
    ((((instances.zipIdx n).map (fun q => q.1.map (fun p => (p.1, q.2)))).flatten).foldl
        (fun m q => Dict.set m q.1 q.2) m,
      ((instances.zipIdx n).map (fun q => (q.2, (q.1.length : Int)))).foldl
        (fun m q => Dict.set m q.1 q.2) c) := by
  induction instances generalizing n m c with
  | nil => rfl
  | cons a l ih =>
    rw [List.zipIdx_cons, List.foldl_cons, ih, List.map_cons, List.map_cons, List.flatten_cons,
      List.foldl_append, List.foldl_cons]
    simp only [List.foldl_map]

theorem counts_eq (instances : List Instance) (n : Nat) (c : Dict Nat Int)
    (hc : ∀ k ∈ c.keys, k < n) :
    ((instances.zipIdx n).map (fun q => (q.2, (q.1.length : Int)))).foldl
        (fun m q => Dict.set m q.1 q.2) c =
      c ++ (instances.zipIdx n).map (fun q => (q.2, (q.1.length : Int))) := by
  induction instances generalizing n c with
  | nil => simp
  | cons a l ih =>
    have hset : Dict.set c n (a.length : Int) = c ++ [(n, (a.length : Int))] := by
      have hn : n ∉ c.keys := fun h => absurd (hc n h) (lt_irrefl _)
      clear ih hc
      induction c with
      | nil => rfl
      | cons p r ihr =>
        obtain ⟨x, y⟩ := p
        simp only [Dict.keys_cons, List.mem_cons, not_or] at hn
        simp [Dict.set, Ne.symm hn.1, ihr hn.2]
    rw [List.zipIdx_cons, List.map_cons, List.foldl_cons, hset, ih]
    · simp
    · intro k hk
      simp only [Dict.keys, List.map_append, List.mem_append, List.map_cons, List.map_nil,
        List.mem_singleton] at hk
      rcases hk with h | h
      · exact (hc k h).trans (by omega)
      · omega

theorem countDown_spec (map : Dict String Nat) (shots : List String) (c : Dict Nat Int)
    (h : ∀ s ∈ shots, ∃ i, map.get? s = some i ∧ (c.get? i).isSome) :
    ∃ c', countDown map c shots = some c' ∧ c'.keys = c.keys ∧
      ∀ i v, c.get? i = some v →
        c'.get? i = some (v - ((shots.filter (fun s => map.get? s = some i)).length : Int)) := by
  induction shots generalizing c with
  | nil => exact ⟨c, rfl, rfl, fun i v hv => by simp [hv]⟩
  | cons s l ih =>
    obtain ⟨i, hi, hc⟩ := h s List.mem_cons_self
    obtain ⟨v, hv⟩ := Option.isSome_iff_exists.1 hc
    have hkeys : (Dict.set c i (v - 1)).keys = c.keys := by
      rw [Dict.keys_set]
      have : i ∈ c.keys := (Dict.mem_keys_iff c i).2 hc
      simp [this]
    obtain ⟨c', h1, h2, h3⟩ := ih (Dict.set c i (v - 1)) (by
      intro s' hs'
      obtain ⟨j, hj, hcj⟩ := h s' (List.mem_cons_of_mem _ hs')
      refine ⟨j, hj, ?_⟩
      rw [Dict.get?_set]
      split
      · rfl
      · exact hcj)
    refine ⟨c', ?_, h2.trans hkeys, ?_⟩
    · simp only [countDown, hi, hv]
      exact h1
    · intro j w hw
      by_cases hij : i = j
      · subst hij
        rw [hv] at hw
        cases hw
        rw [h3 i (v - 1) (by simp)]
        simp only [List.filter_cons, hi, decide_true, if_true, List.length_cons]
        congr 1
        push_cast
        ring
      · rw [h3 j w (by rw [Dict.get?_set, if_neg hij]; exact hw)]
        have : ¬ map.get? s = some j := by rw [hi]; simpa using hij
        simp [List.filter_cons, this]

/-- C69. The number of reconstructed instances is the number of instances all of whose images are in the
reconstruction, when the instances share no image and the reconstruction has no other image. -/
theorem C69_count (instances : List Instance) (shots : List String)
    (hd : (instances.map (fun g => g.map Prod.fst)).flatten.Nodup) (hs : shots.Nodup)
    (hsub : ∀ s ∈ shots, ∃ g ∈ instances, s ∈ g.map Prod.fst) :
    countReconstructed instances shots =
      some ((instances.filter (fun g => g.all (fun p => p.1 ∈ shots))).length : Int) := by
  unfold countReconstructed countInit
  rw [countInit_spec instances 0 [] [], counts_eq instances 0 [] (by simp)]
  simp only [List.nil_append]
  set E := ((instances.zipIdx 0).map (fun q => q.1.map (fun p => (p.1, q.2)))).flatten with hE
  set M := E.foldl (fun m q => Dict.set m q.1 q.2) ([] : Dict String Nat) with hM
  set c0 : Dict Nat Int := (instances.zipIdx 0).map (fun q => (q.2, (q.1.length : Int))) with hc0
  have hEk : E.map Prod.fst = (instances.map (fun g => g.map Prod.fst)).flatten := by
    rw [hE, List.map_flatten, List.map_map]
    congr 1
    have : instances = (instances.zipIdx 0).map Prod.fst := by simp
    conv_rhs => rw [this]
    rw [List.map_map]
    refine List.map_congr_left ?_
    intro q _
    simp [Function.comp_def]
  have hMg : ∀ s i, M.get? s = some i ↔ (s, i) ∈ E := by
    intro s i
    rw [hM, foldl_set_get]
    have hw : Dict.Wf E.reverse := by
      unfold Dict.Wf Dict.keys
      rw [List.map_reverse, List.nodup_reverse, hEk]
      exact hd
    constructor
    · intro h
      cases hg : Dict.get? E.reverse s with
      | some v =>
        rw [hg] at h
        cases h
        exact List.mem_reverse.1 (Dict.mem_of_get? hg)
      | none => rw [hg] at h; cases h
    · intro h
      rw [Dict.get?_of_mem hw (List.mem_reverse.2 h)]
  have hEmem : ∀ s i, (s, i) ∈ E ↔ ∃ g, instances[i]? = some g ∧ s ∈ g.map Prod.fst := by
    intro s i
    rw [hE, List.mem_flatten]
    constructor
    · rintro ⟨l, hl, hm⟩
      obtain ⟨q, hq, rfl⟩ := List.mem_map.1 hl
      obtain ⟨p, hp, he⟩ := List.mem_map.1 hm
      cases he
      rw [List.mem_zipIdx_iff_getElem?] at hq
      exact ⟨q.1, hq, List.mem_map.2 ⟨p, hp, rfl⟩⟩
    · rintro ⟨g, hg, hsg⟩
      obtain ⟨p, hp, rfl⟩ := List.mem_map.1 hsg
      exact ⟨_, List.mem_map.2 ⟨(g, i), List.mem_zipIdx_iff_getElem?.2 hg, rfl⟩,
        List.mem_map.2 ⟨p, hp, rfl⟩⟩
  have hc0k : c0.keys = List.range instances.length := by
    rw [hc0]
    unfold Dict.keys
    rw [List.map_map]
    have : (Prod.fst ∘ fun q : Instance × Nat => (q.2, (q.1.length : Int))) = Prod.snd := rfl
    rw [this, List.zipIdx_map_snd, List.range_eq_range']
  have hc0w : c0.Wf := by unfold Dict.Wf; rw [hc0k]; exact List.nodup_range
  have hc0g : ∀ i g, instances[i]? = some g → c0.get? i = some (g.length : Int) := by
    intro i g hg
    refine Dict.get?_of_mem hc0w ?_
    rw [hc0]
    exact List.mem_map.2 ⟨(g, i), List.mem_zipIdx_iff_getElem?.2 hg, rfl⟩
  obtain ⟨c, hc1, hc2, hc3⟩ := countDown_spec M shots c0 (by
    intro s hsm
    obtain ⟨g, hg, hsg⟩ := hsub s hsm
    obtain ⟨i, hi, rfl⟩ := List.getElem_of_mem hg
    refine ⟨i, (hMg s i).2 ((hEmem s i).2 ⟨_, by simp, hsg⟩), ?_⟩
    rw [hc0g i instances[i] (by simp)]
    rfl)
  rw [hc1]
  simp only [Option.map_some, Option.some.injEq]
  -- the values of the counters
  have hwc : c.Wf := by unfold Dict.Wf; rw [hc2]; exact hc0w
  have hpos : ∀ i g, instances[i]? = some g →
      (((c.get? i).getD 0 > 0) ↔ ¬ (g.all (fun p => p.1 ∈ shots)) = true) := by
    intro i g hg
    rw [hc3 i _ (hc0g i g hg), Option.getD_some]
    have hnd : (g.map Prod.fst).Nodup := by
      rw [List.nodup_flatten] at hd
      refine hd.1 _ (List.mem_map.2 ⟨g, List.mem_of_getElem? hg, rfl⟩)
    have hmem : ∀ s, M.get? s = some i ↔ s ∈ g.map Prod.fst := by
      intro s
      rw [hMg, hEmem, hg]
      simp
    have hlen : (shots.filter (fun s => M.get? s = some i)).length =
        ((g.map Prod.fst).filter (fun s => s ∈ shots)).length := by
      refine List.Perm.length_eq ?_
      rw [List.perm_ext_iff_of_nodup (hs.filter _) (hnd.filter _)]
      intro s
      simp only [List.mem_filter, decide_eq_true_eq]
      rw [hmem s]
      tauto
    rw [hlen]
    have hle := List.length_filter_le (fun s => decide (s ∈ shots)) (g.map Prod.fst)
    rw [List.length_map] at hle
    constructor
    · intro h hall
      have : (g.map Prod.fst).filter (fun s => s ∈ shots) = g.map Prod.fst := by
        rw [List.filter_eq_self]
        intro s hsg
        obtain ⟨p, hp, rfl⟩ := List.mem_map.1 hsg
        exact List.all_eq_true.1 hall p hp
      rw [this, List.length_map] at h
      omega
    · intro hall
      by_contra hle2
      have heq : ((g.map Prod.fst).filter (fun s => decide (s ∈ shots))).length = (g.map Prod.fst).length := by
        rw [List.length_map]; omega
      rw [List.length_filter_eq_length_iff] at heq
      refine hall (List.all_eq_true.2 ?_)
      intro p hp
      exact heq _ (List.mem_map.2 ⟨p, hp, rfl⟩)
  have hvals : (c.vals.filter (fun v => v > 0)).length =
      (instances.filter (fun g => ¬ (g.all (fun p => p.1 ∈ shots)) = true)).length := by
    have h1 : c.vals = (List.range instances.length).map (fun i => (c.get? i).getD 0) := by
      rw [← hc0k, ← hc2]
      unfold Dict.keys Dict.vals
      rw [List.map_map]
      refine List.map_congr_left ?_
      intro q hq
      obtain ⟨a, b⟩ := q
      simp [Dict.get?_of_mem hwc hq]
    have h2 : instances = (List.range instances.length).map (fun i => (instances[i]?).getD []) := by
      refine List.ext_getElem (by simp) ?_
      intro i hi1 hi2
      simp [hi1]
    rw [h1]
    conv_rhs => rw [h2]
    rw [List.filter_map, List.filter_map, List.length_map, List.length_map]
    congr 1
    refine List.filter_congr ?_
    intro i hi
    rw [List.mem_range] at hi
    simp only [Function.comp]
    have := hpos i instances[i] (by simp)
    rw [decide_eq_decide, this]
    simp [hi]
  rw [hvals]
  have hsum := List.length_eq_length_filter_add (l := instances) (fun g => g.all (fun p => p.1 ∈ shots))
  have e : (instances.filter (fun g => ¬ (g.all (fun p => p.1 ∈ shots)) = true)).length =
      (instances.filter (fun g => ! (g.all (fun p => p.1 ∈ shots)))).length := by
    congr 1
    refine List.filter_congr ?_
    intro g _
    cases g.all (fun p => p.1 ∈ shots) <;> simp
  rw [e]
  omega

/-- C69. Every rig camera comes from the first group, in decreasing size, that yields it. -/
theorem C69_biggest_group {R : Type} (rel : List Instance → Dict String R) (inRec : String → Bool)
    (groups : List (List Instance)) (k : String) :
    (rigCamerasFrom rel inRec groups).get? k =
      groups.findSome? (fun g => (rel (g.filter (fun i => i.all (fun p => inRec p.1)))).get? k) := by
  unfold rigCamerasFrom
  have hin : ∀ (d : Dict String R) (m : Dict String R),
      (d.foldl (fun m q => Dict.insertNew m q.1 q.2) m).get? k = match m.get? k with
        | some v => some v
        | none => d.get? k := by
    intro d
    induction d with
    | nil => intro m; cases hm : m.get? k <;> simp [hm, Dict.get?]
    | cons q d ih =>
      intro m
      obtain ⟨a, b⟩ := q
      rw [List.foldl_cons, ih]
      unfold Dict.insertNew Dict.has
      by_cases ha : a = k
      · subst ha
        cases hm : m.get? a with
        | some v => simp [hm]
        | none => simp [hm, Dict.get?]
      · cases hm2 : m.get? a with
        | some v => simp [Dict.get?, ha]
        | none => simp [Dict.get?, ha, Dict.get?_set]
  have key : ∀ (m : Dict String R),
      (groups.foldl (fun m g => (rel (g.filter (fun i => i.all (fun p => inRec p.1)))).foldl
        (fun m q => Dict.insertNew m q.1 q.2) m) m).get? k = match m.get? k with
        | some v => some v
        | none => groups.findSome?
          (fun g => (rel (g.filter (fun i => i.all (fun p => inRec p.1)))).get? k) := by
    induction groups with
    | nil => intro m; cases hm : m.get? k <;> simp [hm, Dict.get?]
    | cons g l ih =>
      intro m
      rw [List.foldl_cons, ih, hin]
      cases m.get? k with
      | some v => rfl
      | none =>
        simp only [List.findSome?_cons]
        cases (rel (g.filter (fun i => i.all (fun p => inRec p.1)))).get? k <;> rfl
  exact key []

/-- Names of the form `12_left.jpg`. -/
def sampleSub (pattern image : String) : String := if image.endsWith pattern then (image.dropEnd pattern.length).toString else image

/-- The hypotheses are met by two instances of a stereo rig and a single shot. -/
example : (createInstances sampleSub ["1_L", "1_R", "2_L", "x"] [("left", "_L"), ("right", "_R")]) =
    ([("1", [("1_L", "left"), ("1_R", "right")]), ("2", [("2_L", "left")])], ["x"]) := by
  decide +kernel

example : countReconstructed [[("a", "l"), ("b", "r")], [("c", "l"), ("d", "r")]] ["a", "b", "c"] = some 1 := by
  decide +kernel

end Verif.Rig
