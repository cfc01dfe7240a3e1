import Verif.Model.Features
import Verif.Props.ImageCoords
import Mathlib.Data.List.Perm.Basic
import Mathlib.Tactic.Common

/-!
# C73: feature data and feature files
-/
set_option linter.unusedSectionVars false
set_option linter.unusedSimpArgs false
namespace Verif.Features
open Verif.ImageCoords

/-! ### Masks -/

/-- Specification: the positions a mask keeps, in order. -/
def kept (m : List Bool) : List ℕ := (List.range m.length).filter (fun i => m[i]? = some true)

/-- Specification: the rows at some positions. -/
def rowsAt {α : Type} (idx : List ℕ) (l : List α) : List α := idx.filterMap (fun i => l[i]?)

/-- Specification: every array has `n` rows. -/
structure Aligned (n : ℕ) (f : Feats) : Prop where
  points : f.points.length = n
  descriptors : ∀ d, f.descriptors = some d → d.rows.length = n
  colors : f.colors.length = n
  segmentation : ∀ s, f.semantic = some s → ∃ g, s.segmentation = some g ∧ g.length = n
  instances : ∀ s i, f.semantic = some s → s.instances = some i → i.length = n
  depths : ∀ z, f.depths = some z → z.length = n

theorem kept_cons (b : Bool) (m : List Bool) :
    kept (b :: m) = (if b then [0] else []) ++ (kept m).map (· + 1) := by
  unfold kept
  rw [List.length_cons, List.range_succ_eq_map, List.filter_cons, List.filter_map]
  have : ((fun i => decide ((b :: m)[i]? = some true)) ∘ Nat.succ) = (fun i => decide (m[i]? = some true)) := by
    funext i; simp
  rw [this]
  cases b <;> simp

theorem pickAux_eq {α : Type} (m : List Bool) (l : List α) (h : m.length = l.length) :
    pickAux m l = rowsAt (kept m) l := by
  induction m generalizing l with
  | nil => cases l <;> simp [pickAux, kept, rowsAt] at *
  | cons b m ih =>
    cases l with
    | nil => simp at h
    | cons x l =>
      have hl : m.length = l.length := by simpa using h
      have hshift : rowsAt ((kept m).map (· + 1)) (x :: l) = rowsAt (kept m) l := by
        unfold rowsAt
        rw [List.filterMap_map]
        rfl
      rw [kept_cons]
      unfold pickAux
      rw [ih l hl]
      cases b
      · simpa using hshift.symm
      · have : rowsAt ([0] ++ (kept m).map (· + 1)) (x :: l) =
            x :: rowsAt ((kept m).map (· + 1)) (x :: l) := by
          unfold rowsAt; simp
        simp only [if_true]
        rw [this, hshift]

theorem pick_eq {α : Type} (m : List Bool) (l : List α) (h : m.length = l.length) :
    pick m l = some (rowsAt (kept m) l) := by
  unfold pick
  rw [if_pos h, pickAux_eq m l h]

theorem kept_lt (m : List Bool) : ∀ i ∈ kept m, i < m.length := by
  intro i hi
  simpa using (List.mem_filter.1 hi).1

theorem rowsAt_length {α : Type} (idx : List ℕ) (l : List α) (h : ∀ i ∈ idx, i < l.length) :
    (rowsAt idx l).length = idx.length := by
  induction idx with
  | nil => rfl
  | cons i idx ih =>
    have hi := h i (by simp)
    unfold rowsAt at ih ⊢
    rw [List.filterMap_cons, List.getElem?_eq_getElem hi]
    simp only [List.length_cons]
    rw [ih (fun j hj => h j (List.mem_cons_of_mem _ hj))]

/-- C73. Masking aligned feature data keeps exactly the rows at the positions where the mask is true, in
order, in every array: the result is aligned again and row `k` of every array is that of one feature. -/
theorem C73_mask (f : Feats) (n : ℕ) (hf : Aligned n f) (m : List Bool) (hm : m.length = n) :
    ∃ g, f.mask m = some g ∧ Aligned (kept m).length g ∧
      g.points = rowsAt (kept m) f.points ∧
      g.descriptors = f.descriptors.map (fun d => ⟨d.dtype, rowsAt (kept m) d.rows⟩) ∧
      g.colors = rowsAt (kept m) f.colors ∧
      g.semantic = f.semantic.map (fun s => ⟨s.segmentation.map (rowsAt (kept m)),
        s.instances.map (rowsAt (kept m)), s.labels⟩) ∧
      g.depths = f.depths.map (rowsAt (kept m)) := by
  obtain ⟨pts, desc, cols, sem, dep⟩ := f
  obtain ⟨hp, hd, hc, hs, hi, hz⟩ := hf
  simp only at hp hd hc hs hi hz
  have hlen : ∀ {α : Type} (l : List α), l.length = n → (rowsAt (kept m) l).length = (kept m).length := by
    intro α l hl
    exact rowsAt_length _ _ (fun i hi => by rw [hl, ← hm]; exact kept_lt m i hi)
  have e1 : pick m pts = some (rowsAt (kept m) pts) := pick_eq m pts (hm.trans hp.symm)
  have e2 : maskDesc m desc = some (desc.map (fun d => ⟨d.dtype, rowsAt (kept m) d.rows⟩)) := by
    cases desc with
    | none => rfl
    | some d =>
      unfold maskDesc
      simp only
      rw [pick_eq m d.rows (hm.trans (hd d rfl).symm)]; rfl
  have e3 : pick m cols = some (rowsAt (kept m) cols) := pick_eq m cols (hm.trans hc.symm)
  have e4 : maskSemantic m sem = some (sem.map (fun s => ⟨s.segmentation.map (rowsAt (kept m)),
      s.instances.map (rowsAt (kept m)), s.labels⟩)) := by
    cases sem with
    | none => rfl
    | some s =>
      obtain ⟨g, hg, hgl⟩ := hs s rfl
      have e : pickOpt m s.instances = some (s.instances.map (rowsAt (kept m))) := by
        cases hins : s.instances with
        | none => rfl
        | some i =>
          unfold pickOpt
          simp only
          rw [pick_eq m i (hm.trans (hi s i rfl hins).symm)]; rfl
      unfold maskSemantic Semantic.mask
      simp only [hg, pick_eq m g (hm.trans hgl.symm), e, Option.map_some]
  have e5 : pickOpt m dep = some (dep.map (rowsAt (kept m))) := by
    cases dep with
    | none => rfl
    | some z =>
      unfold pickOpt
      simp only
      rw [pick_eq m z (hm.trans (hz z rfl).symm)]; rfl
  refine ⟨⟨rowsAt (kept m) pts, desc.map (fun d => ⟨d.dtype, rowsAt (kept m) d.rows⟩), rowsAt (kept m) cols,
    sem.map (fun s => ⟨s.segmentation.map (rowsAt (kept m)), s.instances.map (rowsAt (kept m)), s.labels⟩),
    dep.map (rowsAt (kept m))⟩, ?_, ?_, rfl, rfl, rfl, rfl, rfl⟩
  · unfold Feats.mask
    simp only [e1, e2, e3, e4, e5]
  · refine ⟨hlen _ hp, ?_, hlen _ hc, ?_, ?_, ?_⟩
    · intro d' h
      simp only at h
      obtain ⟨d, hd', rfl⟩ := Option.map_eq_some_iff.1 h
      exact hlen _ (hd d hd')
    · intro s' h
      obtain ⟨s, hs', rfl⟩ := Option.map_eq_some_iff.1 h
      obtain ⟨g, hg, hgl⟩ := hs s hs'
      exact ⟨rowsAt (kept m) g, by simp [hg], hlen _ hgl⟩
    · intro s' i' h h'
      obtain ⟨s, hs', rfl⟩ := Option.map_eq_some_iff.1 h
      obtain ⟨i, hi', rfl⟩ := Option.map_eq_some_iff.1 h'
      exact hlen _ (hi s i hs' hi')
    · intro z' h
      obtain ⟨z, hz', rfl⟩ := Option.map_eq_some_iff.1 h
      exact hlen _ (hz z hz')

/-- C73. A mask of another length than the points is refused. -/
theorem C73_mask_length (f : Feats) (m : List Bool) (h : m.length ≠ f.points.length) : f.mask m = none := by
  unfold Feats.mask
  have : pick m f.points = none := by unfold pick; rw [if_neg h]
  rw [this]
  cases maskSemantic m f.semantic <;> rfl

/-! ### Files -/

/-- Specification: the element type after saving and loading: `uint8` survives only for binary
descriptors. -/
def loadedType (cfg : Cfg) : DType :=
  if savedType cfg = .u8 ∧ ¬ (cfg.featureType = "HAHOG" ∧ cfg.uchar = true) then .u8 else .f32

theorem loadedDesc_conv (cv : Conv) (cfg : Cfg) (d : Desc) :
    loadedDesc cfg (convDesc cv (savedType cfg) d) =
      ⟨loadedType cfg, d.rows.map (fun r => r.map (elemConv cv (savedType cfg)))⟩ := by
  unfold loadedDesc loadedType convDesc
  by_cases h : cfg.featureType = "HAHOG" ∧ cfg.uchar = true
  · rw [if_pos h, if_neg (fun x => x.2 h)]
  · rw [if_neg h]
    cases hs : savedType cfg
    · rw [if_pos ⟨rfl, h⟩]
    · rw [if_neg (by simp)]

/-- Specification: the semantic data after saving and loading. -/
def savedSemantic (s : Option Semantic) : Option Semantic :=
  match s with
  | some ⟨some (a :: g), ins, labels⟩ =>
    some ⟨some ((a :: g).map (· % 256)), (ins.bind nonEmpty).map (fun l => l.map wrap16), labels⟩
  | _ => none

theorem nonEmpty_map (f : ℤ → ℤ) (l : List ℤ) : nonEmpty (l.map f) = (nonEmpty l).map (fun l => l.map f) := by
  unfold nonEmpty
  cases l <;> simp

theorem semantic_saved (g : List ℤ) (ins : Option (List ℤ)) (labels : List String)
    (hi : g = [] → ins.bind nonEmpty = none) :
    semanticV3 (g.map wrap8) ((ins.map (fun l => l.map wrap16)).getD []) labels =
      savedSemantic (some ⟨some g, ins, labels⟩) := by
  have hins : nonEmpty ((ins.map (fun l => l.map wrap16)).getD []) =
      (ins.bind nonEmpty).map (fun l => l.map wrap16) := by
    cases ins with
    | none => rfl
    | some l => simp only [Option.map_some, Option.getD_some, nonEmpty_map, Option.bind_some]
  unfold semanticV3
  rw [hins, nonEmpty_map]
  cases g with
  | nil => rw [hi rfl]; simp [nonEmpty, savedSemantic]
  | cons a g => simp [nonEmpty, savedSemantic, wrap8]

/-- C73. What a saved feature file gives back, for all data: points and descriptors as converted, colours as
they were, segmentation modulo 256, instances as 16 bit numbers, no depths. -/
theorem C73_saved (cv : Conv) (cfg : Cfg) (f : Feats) (n : ℕ) (hf : Aligned n f) (d : Desc)
    (hd : f.descriptors = some d) :
    ∃ z, save cv cfg f = some z ∧ fromFile cfg z = some
      { points := f.points.map (fun k => ⟨cv.f32 k.x, cv.f32 k.y, cv.f32 k.size, k.rest.map cv.f32⟩)
        descriptors := some ⟨loadedType cfg,
          d.rows.map (fun r => r.map (elemConv cv (savedType cfg)))⟩
        colors := f.colors
        semantic := savedSemantic f.semantic
        depths := none } := by
  unfold save
  simp only [hd]
  cases hs : f.semantic with
  | none =>
    refine ⟨_, rfl, ?_⟩
    unfold fromFile loadV3
    simp only [Option.getD_some, loadedDesc_conv]
    rfl
  | some s =>
    obtain ⟨g, hg, hgl⟩ := hf.segmentation s hs
    simp only [hg]
    refine ⟨_, rfl, ?_⟩
    unfold fromFile loadV3
    simp only [Option.getD_some, loadedDesc_conv]
    have hns : s = ⟨some g, s.instances, s.labels⟩ := by cases s; simp only at hg; rw [hg]
    rw [semantic_saved g s.instances s.labels ?_, ← hns]
    · rfl
    · intro hg0
      cases hi : s.instances with
      | none => rfl
      | some i =>
        have := hf.instances s i hs hi
        rw [← hgl, hg0] at this
        rw [List.length_nil, List.length_eq_zero_iff] at this
        rw [this]; rfl

/-- C73. Feature data with at least one feature whose numbers fit the stored types is read back as it was,
except for the depths (and the element type of the descriptors, `loadedType`). -/
theorem C73_roundtrip (cv : Conv) (cfg : Cfg) (f : Feats) (n : ℕ) (hn : 0 < n) (hf : Aligned n f) (d : Desc)
    (hd : f.descriptors = some d)
    (hp : ∀ k ∈ f.points, cv.f32 k.x = k.x ∧ cv.f32 k.y = k.y ∧ cv.f32 k.size = k.size ∧
      ∀ a ∈ k.rest, cv.f32 a = a)
    (hr : ∀ r ∈ d.rows, ∀ a ∈ r, (elemConv cv (savedType cfg)) a = a)
    (hseg : ∀ s g, f.semantic = some s → s.segmentation = some g → ∀ a ∈ g, 0 ≤ a ∧ a < 256)
    (hins : ∀ s g, f.semantic = some s → s.instances = some g → ∀ a ∈ g, -32768 ≤ a ∧ a < 32768) :
    ∃ z, save cv cfg f = some z ∧
      fromFile cfg z = some { f with descriptors := some ⟨loadedType cfg, d.rows⟩, depths := none } := by
  obtain ⟨z, h1, h2⟩ := C73_saved cv cfg f n hf d hd
  refine ⟨z, h1, ?_⟩
  rw [h2]
  have ep : f.points.map (fun k => (⟨cv.f32 k.x, cv.f32 k.y, cv.f32 k.size, k.rest.map cv.f32⟩ : Kp)) =
      f.points := by
    conv_rhs => rw [← List.map_id f.points]
    refine List.map_congr_left (fun k hk => ?_)
    obtain ⟨a, b, c, r⟩ := hp k hk
    have : k.rest.map cv.f32 = k.rest := by
      conv_rhs => rw [← List.map_id k.rest]
      exact List.map_congr_left r
    rw [a, b, c, this]; rfl
  have er : d.rows.map (fun r => r.map (elemConv cv (savedType cfg))) = d.rows := by
    conv_rhs => rw [← List.map_id d.rows]
    refine List.map_congr_left (fun r hr' => ?_)
    conv_rhs => rw [id, ← List.map_id r]
    exact List.map_congr_left (hr r hr')
  have es : savedSemantic f.semantic = f.semantic := by
    cases hs : f.semantic with
    | none => rfl
    | some s =>
      obtain ⟨g, hg, hgl⟩ := hf.segmentation s hs
      obtain ⟨seg, ins, labels⟩ := s
      simp only at hg
      subst hg
      cases g with
      | nil => simp at hgl; omega
      | cons a g =>
        have e1 : (a :: g).map (· % 256) = a :: g := by
          conv_rhs => rw [← List.map_id (a :: g)]
          refine List.map_congr_left (fun x hx => ?_)
          have := hseg _ _ hs rfl x hx
          exact Int.emod_eq_of_lt this.1 this.2
        have e2 : (ins.bind nonEmpty).map (fun l => l.map wrap16) = ins := by
          cases ins with
          | none => rfl
          | some i =>
            have hil := hf.instances _ i hs rfl
            have hne : nonEmpty i = some i := by unfold nonEmpty; rw [if_pos (by omega)]
            simp only [Option.bind_some, hne, Option.map_some]
            congr 1
            conv_rhs => rw [← List.map_id i]
            refine List.map_congr_left (fun x hx => ?_)
            have := hins _ _ hs rfl x hx
            unfold wrap16
            rw [Int.emod_eq_of_lt (by omega) (by omega)]
            simp
        unfold savedSemantic
        simp only [e1, e2]
  rw [ep, er, es]

/-- C73. Data without descriptors cannot be saved. -/
theorem C73_no_descriptors (cv : Conv) (cfg : Cfg) (f : Feats) (h : f.descriptors = none) :
    save cv cfg f = none := by
  unfold save; simp only [h]

/-- C73. With the feature type written `HAHOG` descriptors are always loaded as floats; with another
capitalisation, which detection accepts, 8 bit descriptors are loaded as bytes. -/
theorem C73_capitals (cfg : Cfg) :
    (cfg.featureType = "HAHOG" → loadedType cfg = .f32) ∧
    (upperS cfg.featureType = "HAHOG" → cfg.featureType ≠ "HAHOG" → cfg.uchar = true → loadedType cfg = .u8) := by
  constructor
  · intro h
    unfold loadedType
    by_cases hu : cfg.uchar = true
    · rw [if_neg (fun x => x.2 ⟨h, hu⟩)]
    · rw [if_neg]
      rintro ⟨hs, -⟩
      unfold savedType at hs
      rw [h, if_neg] at hs
      · cases hs
      · rintro (⟨h', -⟩ | ⟨-, h'⟩ | h')
        · exact absurd h' (by decide +kernel)
        · exact hu h'
        · exact absurd h' (by decide +kernel)
  · intro hup hne hu
    unfold loadedType
    rw [if_pos]
    refine ⟨?_, fun h => hne h.1⟩
    unfold savedType
    rw [if_pos (Or.inr (Or.inl ⟨hup, hu⟩))]

/-- C73. The versions: without a version every size is replaced by `reprojection_error_sd`; version 1 has no
semantic data; a version after 3 is refused. -/
theorem C73_versions (cfg : Cfg) (z : Npz) :
    (z.version = none → fromFile cfg z = some
      { points := z.points.map (fun k => ⟨k.x, k.y, cfg.reprojectionErrorSd, k.rest⟩)
        descriptors := some (loadedDesc cfg z.descriptors), colors := z.colors, semantic := none }) ∧
    (z.version = some 1 → fromFile cfg z = some
      { points := z.points, descriptors := some (loadedDesc cfg z.descriptors), colors := z.colors
        semantic := none }) ∧
    (∀ v, z.version = some v → 3 < v → fromFile cfg z = none) := by
  refine ⟨?_, ?_, ?_⟩
  · intro h; unfold fromFile; rw [h]; rfl
  · intro h; unfold fromFile; rw [h]; rfl
  · intro v h hv
    unfold fromFile
    rw [h]
    match v, hv with
    | n + 4, _ => rfl

/-- C73. Semantic data of a version 2 file is available exactly if both arrays can be read without
unpickling; one unreadable array hides the other too. -/
theorem C73_version2 (cfg : Cfg) (z : Npz) (hv : z.version = some 2) (seg ins : Arr) (lab : Option (List String))
    (h1 : z.segmentations = some seg) (h2 : z.instances = some ins) (h3 : z.labels = some lab) :
    ∃ f, fromFile cfg z = some f ∧ f.points = z.points ∧
      ∀ s, f.semantic = some s ↔ ∃ a b, seg = .ints a ∧ ins = .ints b ∧
        s = ⟨some a, some b, lab.getD []⟩ := by
  refine ⟨{ points := z.points, descriptors := some (loadedDesc cfg z.descriptors), colors := z.colors
            semantic := semanticV2 seg ins lab }, ?_, rfl, ?_⟩
  · unfold fromFile loadV2
    simp only [hv, Option.getD_some, h1, h2, h3]
  · intro s
    cases seg <;> cases ins <;> simp [semanticV2, eq_comm]

/-- C73. Saving features makes them the loaded ones if there is no legacy file; a legacy file hides whatever
is saved. -/
theorem C73_legacy (cv : Conv) (cfg : Cfg) (f f' : Files) (x : Feats) (h : f.save cv cfg x = some f') :
    (f.legacy = none → f'.load cfg = (save cv cfg x).bind (fromFile cfg)) ∧
    (∀ z, f.legacy = some z → f'.load cfg = f.load cfg) ∧ f'.exist = true := by
  unfold Files.save at h
  obtain ⟨z, hz, rfl⟩ := Option.map_eq_some_iff.1 h
  refine ⟨?_, ?_, ?_⟩
  · intro hl
    unfold Files.load
    simp only [hl, hz]
  · intro z' hl
    unfold Files.load
    simp only [hl]
  · rfl

/-- C73. Features exist exactly if one of the two files is there; features that can be loaded exist, and
features that do not exist cannot be loaded. -/
theorem C73_exist (cfg : Cfg) (f : Files) :
    (f.exist = true ↔ (∃ z, f.current = some z) ∨ ∃ z, f.legacy = some z) ∧
    ((f.load cfg).isSome → f.exist = true) ∧ (f.exist = false → f.load cfg = none) := by
  rcases f with ⟨c, l⟩
  refine ⟨?_, ?_, ?_⟩ <;> cases c <;> cases l <;> simp [Files.exist, Files.load]

/-! ### Examples -/

/-- Two features with labels and instances. -/
def featsEx : Feats :=
  { points := [⟨0, 1 / 4, 2, [90]⟩, ⟨-1 / 4, 0, 3, [45]⟩]
    descriptors := some ⟨.f32, [[1, 2], [3, 4]]⟩, colors := [[255, 0, 0], [0, 255, 0]]
    semantic := some ⟨some [7, 21], some [0, 3], ["sky", "road"]⟩ }

/-- The hypotheses of `C73_mask` and `C73_roundtrip` hold. -/
example : Aligned 2 featsEx ∧ (∀ s g, featsEx.semantic = some s → s.segmentation = some g → ∀ a ∈ g, 0 ≤ a ∧ a < 256) := by
  constructor
  · constructor
    · rfl
    · intro d h; cases h; rfl
    · rfl
    · intro s h; cases h; exact ⟨_, rfl, rfl⟩
    · intro s i h h'; cases h; cases h'; rfl
    · intro z h; cases h
  · intro s g h h'; cases h; cases h'; decide

/-- Masking keeps the second rows together. -/
example : (featsEx.mask [false, true]).map (fun g => (g.points, g.colors, g.semantic)) =
    some ([⟨-1 / 4, 0, 3, [45]⟩], [[0, 255, 0]], some ⟨some [21], some [3], ["sky", "road"]⟩) := by
  decide +kernel

/-- Saved and loaded as 8 bit `HAHOG` features. -/
example : ((save ⟨id, id⟩ ⟨"HAHOG", "MLDB", true, 1⟩ featsEx).bind (fromFile ⟨"HAHOG", "MLDB", true, 1⟩)) =
    some featsEx := by
  decide +kernel

/-- A label above 255 is not read back. -/
example : ((save ⟨id, id⟩ ⟨"HAHOG", "MLDB", true, 1⟩
      { featsEx with semantic := some ⟨some [256, 21], none, []⟩ }).bind
        (fromFile ⟨"HAHOG", "MLDB", true, 1⟩)).map Feats.semantic = some (some ⟨some [0, 21], none, []⟩) := by
  decide +kernel

/-- Written in small letters the same type loads bytes. -/
example : loadedType ⟨"hahog", "MLDB", true, 1⟩ = .u8 ∧ loadedType ⟨"HAHOG", "MLDB", true, 1⟩ = .f32 := by
  decide +kernel

end Verif.Features
