import Verif.Props.Features

/-!
# C74: which features a mask keeps, with and without baked segmentation
-/
set_option linter.unusedSectionVars false
set_option linter.unusedSimpArgs false
namespace Verif.Features
open Verif.ImageCoords

/-- A detected feature: its row of `points`, of the descriptors and of the colours. -/
abbrev Row := Kp × List ℚ × List ℚ

/-- The arrays of a list of features. -/
def arrays (t : DType) (L : List Row) : Extracted :=
  ⟨L.map (fun r => r.1), ⟨t, L.map (fun r => r.2.1)⟩, L.map (fun r => r.2.2)⟩

/-- Specification: the value of a mask or segmentation image under a feature. -/
def under (im : Img) (m : Mask) (r : Row) : Option ℕ := valueAt im.width im.height im.orientation m (xy r.1)

/-- Specification: a feature is kept if its label is not to be ignored and the mask, if there is one, is not
zero under it. -/
def keeps (im : Img) (seg : Mask) (r : Row) : Bool :=
  decide ((under im seg r).getD 0 ∉ im.ignore) &&
    (match im.mask with
      | none => true
      | some m => decide (under im m r ≠ some 0))

/-- Specification: the combined mask image, if there is one, is not zero under a feature. -/
def keepsCombined (im : Img) (r : Row) : Bool :=
  match combinedMask im with
  | none => true
  | some m => decide (under im m r ≠ some 0)

/-! ### Lists -/

theorem mapM_some {α β : Type} (f : α → Option β) (g : α → β) (l : List α) (h : ∀ a ∈ l, f a = some (g a)) :
    l.mapM f = some (l.map g) := by
  induction l with
  | nil => rfl
  | cons a l ih =>
    rw [List.mapM_cons, h a (by simp), ih (fun b hb => h b (by simp [hb]))]
    rfl

theorem mapM_isSome {α β : Type} (f : α → Option β) (l : List α) (out : List β) (h : l.mapM f = some out) :
    ∀ a ∈ l, (f a).isSome := by
  induction l generalizing out with
  | nil => simp
  | cons a l ih =>
    rw [List.mapM_cons] at h
    cases ha : f a with
    | none => rw [ha] at h; cases h
    | some b =>
      rw [ha] at h
      cases hl : l.mapM f with
      | none => rw [hl] at h; cases h
      | some o =>
        intro x hx
        rcases List.mem_cons.1 hx with rfl | hx
        · rw [ha]; rfl
        · exact ih o hl x hx

theorem pick_map {α β : Type} (q : α → Bool) (g : α → β) (L : List α) :
    pick (L.map q) (L.map g) = some ((L.filter q).map g) := by
  unfold pick
  rw [if_pos (by simp)]
  congr 1
  induction L with
  | nil => rfl
  | cons a L ih =>
    simp only [List.map_cons, pickAux, List.filter_cons]
    rw [ih]
    cases q a <;> simp

theorem reorder_map {α β : Type} (g : α → β) (L L' : List α) (order : List ℕ) (h : reorder order L = some L') :
    reorder order (L.map g) = some (L'.map g) := by
  unfold reorder at *
  induction order generalizing L' with
  | nil => cases h; rfl
  | cons i order ih =>
    rw [List.mapM_cons] at h ⊢
    rw [List.getElem?_map]
    cases hi : L[i]? with
    | none => rw [hi] at h; cases h
    | some a =>
      rw [hi] at h
      cases hl : order.mapM (fun i => L[i]?) with
      | none => rw [hl] at h; cases h
      | some o =>
        rw [hl] at h
        have : L' = a :: o := (Option.some.inj h).symm
        subst this
        rw [ih o hl]
        rfl

theorem reorder_perm {α : Type} (L : List α) (order : List ℕ) (h : order.Perm (List.range L.length)) :
    ∃ L', reorder order L = some L' ∧ L'.Perm L := by
  have hlt : ∀ i ∈ order, i < L.length := fun i hi => by simpa using h.mem_iff.1 hi
  cases L with
  | nil =>
    have : order = [] := by simpa using h
    subst this
    exact ⟨[], rfl, List.Perm.refl _⟩
  | cons a L =>
    refine ⟨order.map (fun i => (a :: L)[i]?.getD a), ?_, ?_⟩
    · refine mapM_some _ _ _ (fun i hi => ?_)
      rw [List.getElem?_eq_getElem (hlt i hi)]; rfl
    · refine (h.map _).trans ?_
      have : (List.range (a :: L).length).map (fun i => (a :: L)[i]?.getD a) = a :: L := by
        refine List.ext_getElem (by simp) (fun n h1 h2 => ?_)
        simp only [List.getElem_map, List.getElem_range]
        rw [List.getElem?_eq_getElem h2]; rfl
      rw [this]

/-! ### Masks -/

theorem featureMask_eq (w h o : ℕ) (m : Mask) (c : ℚ × ℚ) :
    featureMask w h o m c = (valueAt w h o m c).map (fun v => decide (v ≠ 0)) := by
  unfold featureMask valueAt
  cases toUpright w h o (some m.width) (some m.height) c <;> rfl

theorem loadFeaturesMask_some (w h o : ℕ) (m : Mask) (pts : List (ℚ × ℚ)) :
    loadFeaturesMask w h o (some m) pts = pts.mapM (featureMask w h o m) := by
  cases pts <;> rfl

/-- A mask image, looked up under features. -/
theorem image_mask (im : Img) (m : Mask) (L : List Row) (h : ∀ r ∈ L, (under im m r).isSome)
    (pts : List Kp) (hp : pts.map xy = L.map (fun r => xy r.1)) :
    loadFeaturesMask im.width im.height im.orientation (some m) (pts.map xy) =
      some (L.map (fun r => decide (under im m r ≠ some 0))) := by
  rw [loadFeaturesMask_some, hp, List.mapM_map]
  refine mapM_some _ _ _ (fun r hr => ?_)
  have := h r hr
  unfold under at this ⊢
  simp only [Function.comp, featureMask_eq]
  cases hv : valueAt im.width im.height im.orientation m (xy r.1) with
  | none => rw [hv] at this; cases this
  | some v => simp

theorem combined_mask (im : Img) (L : List Row)
    (h : ∀ m, combinedMask im = some m → ∀ r ∈ L, (under im m r).isSome)
    (pts : List Kp) (hp : pts.map xy = L.map (fun r => xy r.1)) :
    featuresMask im pts none = some (L.map (keepsCombined im)) := by
  unfold featuresMask keepsCombined
  simp only
  cases hc : combinedMask im with
  | some m => exact image_mask im m L (h m hc) pts hp
  | none =>
    rw [hp]
    cases L <;> simp [loadFeaturesMask]

theorem combined_isSome (im : Img) (L : List Row) (pts : List Kp) (hp : pts.map xy = L.map (fun r => xy r.1))
    (out : List Bool) (ho : featuresMask im pts none = some out) :
    ∀ m, combinedMask im = some m → ∀ r ∈ L, (under im m r).isSome := by
  intro m hc r hr
  unfold featuresMask at ho
  simp only [hc] at ho
  rw [loadFeaturesMask_some, hp, List.mapM_map] at ho
  have := mapM_isSome _ _ _ ho r hr
  simpa [Function.comp, featureMask_eq, under] using this

theorem cut_xy (f : Feats) : (cut f).points.map xy = f.points.map xy := by
  unfold cut
  simp only [List.map_map]
  rfl

/-- A point as the loader returns it. -/
def short (k : Kp) : Kp := { k with rest := [] }

/-- C74. With baked segmentation all features are saved, sorted, each with the label under it; the loader
returns those whose label is not to be ignored and where the mask, if there is one, is not zero. -/
theorem C74_baked (labels : List String) (im : Img) (seg : Mask) (hseg : im.segmentation = some seg)
    (t : DType) (L : List Row) (order : List ℕ) (ho : order.Perm (List.range L.length)) (f : Feats)
    (hf : detectBaked labels order im.width im.height im (arrays t L) = some f)
    (hm : ∀ m, im.mask = some m → ∀ r ∈ L, (under im m r).isSome) :
    ∃ (L' : List Row) (g : Feats), L'.Perm (L.filter (keeps im seg)) ∧ loadMasked true im (cut f) = some g ∧
      f.points.length = L.length ∧
      g.points = L'.map (fun r => short r.1) ∧ g.descriptors = some ⟨t, L'.map (fun r => r.2.1)⟩ ∧
      g.colors = L'.map (fun r => r.2.2) ∧
      ∃ s, g.semantic = some s ∧ s.labels = labels ∧
        s.segmentation = some (L'.map (fun r => (((under im seg r).getD 0 : ℕ) : ℤ))) := by
  obtain ⟨M, hM, hMp⟩ := reorder_perm L order ho
  -- the labels
  have hbake : ∀ (m : Mask), ∀ out, bakeOne im.width im.height im.orientation (L.map (fun r => r.1)) (some m) = some out →
      (∀ r ∈ L, (under im m r).isSome) ∧ out = some (L.map (fun r => (((under im m r).getD 0 : ℕ) : ℤ))) := by
    intro m out hout
    unfold bakeOne at hout
    simp only [List.mapM_map] at hout
    obtain ⟨o, h1, rfl⟩ := Option.map_eq_some_iff.1 hout
    have hs : ∀ r ∈ L, (under im m r).isSome := by
      intro r hr
      have := mapM_isSome _ _ _ h1 r hr
      unfold under
      cases hv : valueAt im.width im.height im.orientation m (xy r.1) with
      | none => simp [hv] at this
      | some v => rfl
    refine ⟨hs, ?_⟩
    rw [mapM_some _ (fun r => (((under im m r).getD 0 : ℕ) : ℤ)) L ?_] at h1
    · exact congrArg some (Option.some.inj h1).symm
    · intro r hr
      have := hs r hr
      unfold under at this ⊢
      simp only [Function.comp]
      cases hv : valueAt im.width im.height im.orientation m (xy r.1) with
      | none => rw [hv] at this; cases this
      | some v => rfl
  unfold detectBaked at hf
  rw [hseg] at hf
  change (match bakeOne im.width im.height im.orientation (L.map (fun r => r.1)) (some seg),
    bakeOne im.width im.height im.orientation (L.map (fun r => r.1)) im.instances with
    | some s, some i => sortFeats labels order (arrays t L) s i
    | _, _ => none) = some f at hf
  cases hb : bakeOne im.width im.height im.orientation (L.map (fun r => r.1)) (some seg) with
  | none => rw [hb] at hf; cases hf
  | some sv =>
    obtain ⟨hsome, rfl⟩ := hbake seg sv hb
    rw [hb] at hf
    -- instances
    have hins : ∃ q : Option (Row → ℤ), bakeOne im.width im.height im.orientation (L.map (fun r => r.1)) im.instances =
        some (q.map (fun g => L.map g)) := by
      cases hi : im.instances with
      | none => exact ⟨none, rfl⟩
      | some m =>
        cases hbi : bakeOne im.width im.height im.orientation (L.map (fun r => r.1)) (some m) with
        | none => rw [hi, hbi] at hf; cases hf
        | some iv =>
          obtain ⟨-, rfl⟩ := hbake m iv hbi
          exact ⟨some _, rfl⟩
    obtain ⟨q, hq⟩ := hins
    rw [hq] at hf
    simp only at hf
    unfold sortFeats arrays at hf
    simp only [reorder_map _ L M order hM] at hf
    have hq2 : reorderOpt order (q.map (fun g => L.map g)) = some (q.map (fun g => M.map g)) := by
      cases q with
      | none => rfl
      | some g => simp only [reorderOpt, Option.map_some, reorder_map _ L M order hM]
    rw [hq2] at hf
    simp only [Option.some.injEq] at hf
    -- the mask
    have hpts : (cut f).points.map xy = M.map (fun r => xy r.1) := by
      rw [cut_xy, ← hf]
      simp only [List.map_map]
      rfl
    have hmask : loadMask true im (cut f) = some (M.map (keeps im seg)) := by
      unfold loadMask cut
      have hsem : f.semantic = some ⟨some (M.map (fun r => (((under im seg r).getD 0 : ℕ) : ℤ))),
          q.map (fun g => M.map g), labels⟩ := by rw [← hf]
      simp only [hsem]
      have hk : segKeep im.ignore (M.map (fun r => (((under im seg r).getD 0 : ℕ) : ℤ))) =
          M.map (fun r => decide ((under im seg r).getD 0 ∉ im.ignore)) := by
        unfold segKeep
        rw [List.map_map]
        refine List.map_congr_left (fun r _ => ?_)
        simp only [Function.comp]
        refine decide_eq_decide.2 ?_
        constructor
        · intro h hin; exact h _ hin rfl
        · intro h v hv he
          exact h (by rw [show (under im seg r).getD 0 = v by exact_mod_cast he]; exact hv)
      cases hmi : im.mask with
      | none =>
        simp only [hk]
        congr 1
        refine List.map_congr_left (fun r _ => ?_)
        unfold keeps
        rw [hmi, Bool.and_true]
      | some m =>
        have hmm : ∀ r ∈ M, (under im m r).isSome := fun r hr => hm m hmi r (hMp.mem_iff.1 hr)
        have hfm : featuresMask im (cut f).points (some m) =
            some (M.map (fun r => decide (under im m r ≠ some 0))) := by
          unfold featuresMask
          exact image_mask im m M hmm _ hpts
        unfold cut at hfm
        simp only at hfm
        simp only [hfm, hk, Option.bind_some]
        unfold andMask
        rw [if_pos (by simp)]
        congr 1
        rw [List.zipWith_map, List.zipWith_self]
        refine List.map_congr_left (fun r _ => ?_)
        unfold keeps
        rw [hmi]
    refine ⟨M.filter (keeps im seg), ⟨(M.filter (keeps im seg)).map (fun r => short r.1),
      some ⟨t, (M.filter (keeps im seg)).map (fun r => r.2.1)⟩, (M.filter (keeps im seg)).map (fun r => r.2.2),
      some ⟨some ((M.filter (keeps im seg)).map (fun r => (((under im seg r).getD 0 : ℕ) : ℤ))),
        q.map (fun g => (M.filter (keeps im seg)).map g), labels⟩, none⟩, hMp.filter _, ?_, ?_, rfl, rfl, rfl, _, rfl, rfl, rfl⟩
    · unfold loadMasked
      rw [hmask, Option.bind_some]
      rw [← hf]
      unfold Feats.mask cut maskSemantic Semantic.mask maskDesc
      simp only [pick_map, List.map_map, Option.map_some]
      cases q with
      | none => rfl
      | some g => simp only [Option.map_some, pickOpt, pick_map]; rfl
    · rw [← hf]
      simpa using hMp.length_eq

/-- C74. Without baked segmentation the features where the combined mask is zero are dropped before saving;
loading masks the rest again with the same mask and drops nothing more. -/
theorem C74_unbaked (labels : List String) (im : Img) (t : DType) (L : List Row) (order : List ℕ)
    (ho : order.Perm (List.range (L.filter (keepsCombined im)).length)) (f : Feats)
    (hf : detectUnbaked labels order im (arrays t L) = some f) :
    ∃ (L' : List Row) (g : Feats), L'.Perm (L.filter (keepsCombined im)) ∧ loadMasked false im (cut f) = some g ∧ g = cut f ∧
      g.points = L'.map (fun r => short r.1) ∧ g.descriptors = some ⟨t, L'.map (fun r => r.2.1)⟩ ∧
      g.colors = L'.map (fun r => r.2.2) ∧ g.semantic = none := by
  obtain ⟨M, hM, hMp⟩ := reorder_perm _ order ho
  unfold detectUnbaked at hf
  have hp0 : (L.map (fun r => r.1)).map xy = L.map (fun r => xy r.1) := by rw [List.map_map]; rfl
  change (match featuresMask im (L.map (fun r => r.1)) none with
    | none => none
    | some m =>
      match pick m (L.map (fun r => r.1)), pick m (L.map (fun r => r.2.1)), pick m (L.map (fun r => r.2.2)) with
      | some p, some d, some c => sortFeats labels order ⟨p, ⟨t, d⟩, c⟩ none none
      | _, _, _ => none) = some f at hf
  cases hfm : featuresMask im (L.map (fun r => r.1)) none with
  | none => rw [hfm] at hf; cases hf
  | some out =>
    have hs := combined_isSome im L _ hp0 out hfm
    rw [combined_mask im L hs _ hp0] at hf
    simp only [pick_map] at hf
    unfold sortFeats at hf
    simp only [reorder_map _ _ M order hM, Option.some.injEq] at hf
    have hsM : ∀ m, combinedMask im = some m → ∀ r ∈ M, (under im m r).isSome := by
      intro m hc r hr
      exact hs m hc r (List.mem_filter.1 (hMp.mem_iff.1 hr)).1
    have hall : M.filter (keepsCombined im) = M := by
      refine List.filter_eq_self.2 (fun r hr => ?_)
      exact (List.mem_filter.1 (hMp.mem_iff.1 hr)).2
    refine ⟨M, cut f, hMp, ?_, rfl, ?_, ?_, ?_, ?_⟩
    · unfold loadMasked loadMask
      have hpts : (cut f).points.map xy = M.map (fun r => xy r.1) := by
        rw [cut_xy, ← hf]
        simp only [List.map_map]
        rfl
      have : featuresMask im (cut f).points none = some (M.map (keepsCombined im)) :=
        combined_mask im M hsM _ hpts
      simp only [this, Option.bind_some]
      rw [← hf]
      unfold Feats.mask cut maskSemantic maskDesc
      simp only [pick_map, List.map_map, Option.map_some, hall]
      rfl
    · rw [← hf]; unfold cut; simp only [List.map_map]; rfl
    · rw [← hf]; rfl
    · rw [← hf]; rfl
    · rw [← hf]; rfl

theorem seg_le_one (ignore : List ℕ) (v : ℕ) : segmentationMask ignore v = if v ∈ ignore then 0 else 1 := by
  have : ∀ (l : List ℕ) (m : ℕ), m = 0 ∨ m = 1 →
      l.foldl (fun m x => if m ≠ 0 ∧ v ≠ x then 1 else 0) m = if m = 1 ∧ v ∉ l then 1 else 0 := by
    intro l
    induction l with
    | nil => intro m hm; rcases hm with rfl | rfl <;> simp
    | cons x l ih =>
      intro m hm
      rw [List.foldl_cons, ih _ (by split <;> simp)]
      rcases hm with rfl | rfl
      · simp
      · by_cases hx : v = x
        · simp [hx]
        · simp [hx]
  unfold segmentationMask
  rw [this ignore 1 (Or.inr rfl)]
  by_cases h : v ∈ ignore <;> simp [h]

/-- C74. Both ways keep the same features: with a mask image of the size of the segmentation whose values are
zero or odd (0 and 255, or 0 and 1), the two conditions agree wherever the images are defined. -/
theorem C74_same_condition (im : Img) (seg : Mask) (hseg : im.segmentation = some seg) (r : Row)
    (hs : (under im seg r).isSome)
    (hm : ∀ m, im.mask = some m → m.width = seg.width ∧ m.height = seg.height ∧
      ∀ i j, m.value i j = 0 ∨ m.value i j % 2 = 1) :
    keeps im seg r = keepsCombined im r := by
  unfold keeps keepsCombined combinedMask segMask
  by_cases hi : im.ignore = []
  · rw [if_pos hi, hi]
    cases im.mask with
    | none => simp [combineMasks]
    | some m => simp [combineMasks]
  · rw [if_neg hi, hseg]
    -- the pixel
    obtain ⟨v, hv⟩ := Option.isSome_iff_exists.1 hs
    unfold under valueAt at hv
    cases hu : toUpright im.width im.height im.orientation (some seg.width) (some seg.height) (xy r.1) with
    | none => rw [hu] at hv; cases hv
    | some p =>
      rw [hu] at hv
      simp only at hv
      unfold maskLookup at hv
      cases h1 : npIndex seg.height (trunc p.2) with
      | none => rw [h1] at hv; cases hv
      | some a =>
        cases h2 : npIndex seg.width (trunc p.1) with
        | none => rw [h1, h2] at hv; cases hv
        | some b =>
          rw [h1, h2] at hv
          have hv' : seg.value a b = v := Option.some.inj hv
          have key : ∀ m : Mask, m.width = seg.width → m.height = seg.height →
              under im m r = some (m.value a b) := by
            intro m hw hh
            unfold under valueAt
            rw [hw, hh, hu]
            simp only
            unfold maskLookup
            rw [hw, hh, h1, h2]
          cases hmi : im.mask with
          | none =>
            simp only [Option.map_some, combineMasks, Bool.and_true]
            rw [key seg rfl rfl, key ⟨seg.width, seg.height, fun r c => segmentationMask im.ignore (seg.value r c)⟩ rfl rfl]
            simp only [Option.getD_some, seg_le_one]
            by_cases hin : seg.value a b ∈ im.ignore <;> simp [hin]
          | some m =>
            obtain ⟨hw, hh, hval⟩ := hm m hmi
            simp only [Option.map_some, combineMasks]
            rw [key seg rfl rfl, key m hw hh, key ⟨m.width, m.height,
              fun r c => Nat.land (m.value r c) (segmentationMask im.ignore (seg.value r c))⟩ hw hh]
            simp only [Option.getD_some, seg_le_one]
            by_cases hin : seg.value a b ∈ im.ignore
            · simp [hin, Nat.land]
              exact Nat.and_zero _
            · simp only [hin, if_false, not_false_eq_true, decide_true, Bool.true_and]
              refine decide_eq_decide.2 ?_
              have : Nat.land (m.value a b) 1 = m.value a b % 2 := Nat.and_one_is_mod _
              rw [this]
              rcases hval a b with h0 | h1
              · simp [h0]
              · have : m.value a b ≠ 0 := by intro h0; rw [h0] at h1; simp at h1
                simp [h1, this]

/-- C74. Changing `features_bake_segmentation` does not change which features the matching stage sees: with
a segmentation image and a mask image, if any, of the same size with values zero or odd, detecting and
loading with baking and without give the same features up to order. -/
theorem C74_bake_equiv (labels : List String) (im : Img) (seg : Mask) (hseg : im.segmentation = some seg)
    (hm : ∀ m, im.mask = some m → m.width = seg.width ∧ m.height = seg.height ∧
      ∀ i j, m.value i j = 0 ∨ m.value i j % 2 = 1)
    (t : DType) (L : List Row) (o₁ o₂ : List ℕ) (ho₁ : o₁.Perm (List.range L.length))
    (ho₂ : o₂.Perm (List.range (L.filter (keepsCombined im)).length)) (f₁ f₂ : Feats)
    (h₁ : detectBaked labels o₁ im.width im.height im (arrays t L) = some f₁)
    (h₂ : detectUnbaked labels o₂ im (arrays t L) = some f₂)
    (hd : ∀ r ∈ L, (under im seg r).isSome ∧ ∀ m, im.mask = some m → (under im m r).isSome) :
    ∃ (L₁ L₂ : List Row) (g₁ g₂ : Feats), L₁.Perm L₂ ∧
      loadMasked true im (cut f₁) = some g₁ ∧ loadMasked false im (cut f₂) = some g₂ ∧
      (g₁.points = L₁.map (fun r => short r.1) ∧ g₁.descriptors = some ⟨t, L₁.map (fun r => r.2.1)⟩ ∧
        g₁.colors = L₁.map (fun r => r.2.2)) ∧
      (g₂.points = L₂.map (fun r => short r.1) ∧ g₂.descriptors = some ⟨t, L₂.map (fun r => r.2.1)⟩ ∧
        g₂.colors = L₂.map (fun r => r.2.2)) := by
  obtain ⟨L₁, g₁, hp₁, hl₁, -, a1, a2, a3, -⟩ := C74_baked labels im seg hseg t L o₁ ho₁ f₁ h₁
    (fun m hmi r hr => (hd r hr).2 m hmi)
  obtain ⟨L₂, g₂, hp₂, hl₂, -, b1, b2, b3, -⟩ := C74_unbaked labels im t L o₂ ho₂ f₂ h₂
  refine ⟨L₁, L₂, g₁, g₂, ?_, hl₁, hl₂, ⟨a1, a2, a3⟩, ⟨b1, b2, b3⟩⟩
  have : L.filter (keeps im seg) = L.filter (keepsCombined im) :=
    List.filter_congr (fun r hr => C74_same_condition im seg hseg r (hd r hr).1 hm)
  rw [this] at hp₁
  exact hp₁.trans hp₂.symm

/-- C74. Masked words belong to the masked features: both are the rows at the positions the mask keeps. -/
theorem C74_words {W : Type} (bake : Bool) (im : Img) (f g : Feats) (n : ℕ) (hf : Aligned n f) (words w' : List W)
    (hg : loadMasked bake im f = some g) (hw : maskedWords bake im f words = some w') :
    ∃ m, loadMask bake im f = some m ∧ m.length = n ∧ words.length = n ∧ g.points = rowsAt (kept m) f.points ∧
      w' = rowsAt (kept m) words ∧ w'.length = g.points.length := by
  unfold loadMasked at hg
  unfold maskedWords at hw
  obtain ⟨m, hm, hmg⟩ := Option.bind_eq_some_iff.1 hg
  rw [hm, Option.bind_some] at hw
  have hlen : m.length = n := by
    by_contra hne
    rw [C73_mask_length f m (by rw [hf.points]; exact hne)] at hmg
    cases hmg
  obtain ⟨g', h1, h2, h3, -⟩ := C73_mask f n hf m hlen
  rw [hmg] at h1
  cases h1
  have hwl : m.length = words.length := by
    by_contra hne
    unfold pick at hw
    rw [if_neg hne] at hw
    cases hw
  rw [pick_eq m words hwl] at hw
  have hw' := (Option.some.inj hw).symm
  refine ⟨m, hm, hlen, hwl ▸ hlen, h3, hw', ?_⟩
  rw [hw', rowsAt_length _ _ (fun i hi => by rw [← hwl]; exact kept_lt m i hi), h2.points]

/-- C74. With the segmentation in the descriptor every descriptor gets one more number, 35 times its label,
and nothing else changes; the distance of two descriptors grows by 35 for every step between the labels.
Other descriptors than 8 bit `HAHOG` are refused. -/
theorem C74_augment (cfg : Cfg) (f : Feats) :
    ((cfg.uchar = false ∨ cfg.featureType ≠ "HAHOG") → addSegmentation cfg f = none) ∧
    (cfg.uchar = true → cfg.featureType = "HAHOG" → f.semantic = none → addSegmentation cfg f = some f) ∧
    (∀ (s : Semantic) (seg : List ℤ) (d : Desc), cfg.uchar = true → cfg.featureType = "HAHOG" →
      f.semantic = some s → s.segmentation = some seg → f.descriptors = some d → d.rows.length = seg.length →
      ∃ g d', addSegmentation cfg f = some g ∧ g.points = f.points ∧ g.colors = f.colors ∧
        g.semantic = f.semantic ∧ g.descriptors = some d' ∧ d'.rows.length = d.rows.length ∧
        ∀ (i : ℕ) (r : List ℚ) (l : ℤ), d.rows[i]? = some r → seg[i]? = some l →
          d'.rows[i]? = some (r ++ [35 * (l : ℚ)])) := by
  refine ⟨?_, ?_, ?_⟩
  · intro h; unfold addSegmentation; rw [if_pos h]
  · intro h1 h2 h3
    unfold addSegmentation
    rw [if_neg (by rintro (h | h); · rw [h1] at h; cases h
                   · exact h h2), h3]
    rfl
  · intro s seg d h1 h2 h3 h4 h5 h6
    unfold addSegmentation
    rw [if_neg (by rintro (h | h); · rw [h1] at h; cases h
                   · exact h h2), h3]
    simp only [Option.bind_some, h4, h5]
    rw [if_pos h6]
    refine ⟨_, _, rfl, rfl, rfl, rfl, rfl, ?_, ?_⟩
    · simp [h6]
    · intro i r l hr hl
      simp [List.getElem?_zipWith, hr, hl, segMult, mul_comm]

/-! ### Examples -/

/-- An upright photo, a segmentation with labels 1, 2, 3, 4 in its quarters and a mask without the last
quarter; label 2 is to be ignored. -/
def imgEx : Img :=
  { width := 4, height := 4, orientation := 1, ignore := [2]
    segmentation := some ⟨2, 2, fun r c => 2 * r + c + 1⟩
    mask := some ⟨2, 2, fun r c => if r = 1 ∧ c = 1 then 0 else 255⟩ }

/-- One feature in each quarter. -/
def rowsEx : List Row :=
  [(⟨-1/4, -1/4, 4, []⟩, [1], [10]), (⟨1/4, -1/4, 3, []⟩, [2], [20]), (⟨-1/4, 1/4, 2, []⟩, [3], [30]),
    (⟨1/4, 1/4, 1, []⟩, [4], [40])]

/-- The first and the third feature are kept, both ways. -/
example : ((detectBaked [] [3, 2, 1, 0] 4 4 imgEx (arrays .u8 rowsEx)).bind
      (fun f => loadMasked true imgEx (cut f))).map (fun g => (g.points.map xy, g.colors)) =
        some ([(-1/4, 1/4), (-1/4, -1/4)], [[30], [10]]) ∧
    ((detectUnbaked [] [1, 0] imgEx (arrays .u8 rowsEx)).bind
      (fun f => loadMasked false imgEx (cut f))).map (fun g => (g.points.map xy, g.colors)) =
        some ([(-1/4, 1/4), (-1/4, -1/4)], [[30], [10]]) := by
  decide +kernel

/-- The hypotheses of `C74_bake_equiv` hold for it. -/
example : imgEx.segmentation = some ⟨2, 2, fun r c => 2 * r + c + 1⟩ ∧
    [3, 2, 1, 0].Perm (List.range rowsEx.length) ∧
    [1, 0].Perm (List.range (rowsEx.filter (keepsCombined imgEx)).length) ∧
    (∀ r ∈ rowsEx, (under imgEx ⟨2, 2, fun r c => 2 * r + c + 1⟩ r).isSome ∧
      (under imgEx ⟨2, 2, fun r c => if r = 1 ∧ c = 1 then 0 else 255⟩ r).isSome) := by
  refine ⟨rfl, by decide, by decide +kernel, by decide +kernel⟩

/-- With a grey mask (254 instead of 255) both ways differ: without baking nothing is left. -/
example : let im : Img := { imgEx with mask := some ⟨2, 2, fun r c => if r = 1 ∧ c = 1 then 0 else 254⟩ }
    ((detectBaked [] [3, 2, 1, 0] 4 4 im (arrays .u8 rowsEx)).bind
      (fun f => loadMasked true im (cut f))).map (fun g => g.colors) = some [[30], [10]] ∧
    ((detectUnbaked [] [] im (arrays .u8 rowsEx)).bind
      (fun f => loadMasked false im (cut f))).map (fun g => g.colors) = some [] := by
  decide +kernel

/-- Labels in the descriptor. -/
example : (addSegmentation ⟨"HAHOG", "MLDB", true, 1⟩
    { points := [], descriptors := some ⟨.f32, [[1, 2], [3, 4]]⟩, colors := []
      semantic := some ⟨some [2, 0], none, []⟩ }).bind Feats.descriptors =
    some ⟨.f32, [[1, 2, 70], [3, 4, 0]]⟩ := by
  decide +kernel

end Verif.Features
