import Verif.Model.Calibration
import Mathlib.Tactic.NormNum
import Mathlib.Tactic.Linarith

/-!
# C66: the camera model made for an image
-/
set_option linter.unusedSectionVars false
set_option linter.unusedSimpArgs false
namespace Verif.Calibration
open Verif.CameraIO Verif.PyText

/-- The calibration `c` found at `s` once `pt` has been stored at `s'`. -/
def stored (s' : Slot) (pt : String) (q : Slot × Calib) : Slot × Calib :=
  (q.1, if q.1 = s' then { q.2 with ptype := some pt } else q.2)

theorem hardCoded_setType (t : Table) (s : Slot) (pt : String) (m : ImgMeta) :
    hardCoded (setType t s pt) m = (hardCoded t m).map (stored s pt) := by
  unfold hardCoded setType
  cases s with
  | all mk =>
    simp only [Dict.get?_mapVals]
    cases t.get? (norm m.make) with
    | none => rfl
    | some v =>
      simp only [Option.map_some]
      by_cases h : norm m.make = mk
      · subst h
        simp only [if_true]
        cases v.all with
        | some c => simp [stored]
        | none =>
          simp only [Option.map_none]
          cases v.model with
          | some d => cases hd : Dict.get? d (norm m.model) <;> simp [hd, stored]
          | none =>
            cases v.focal with
            | some d => cases hd : Dict.get? d (pyRound (m.focalRatio * 36)) <;> simp [hd, stored]
            | none => rfl
      · simp only [h, if_false]
        cases v.all with
        | some c => simp [stored, h]
        | none =>
          simp only
          cases v.model with
          | some d => cases hd : Dict.get? d (norm m.model) <;> simp [hd, stored]
          | none =>
            cases v.focal with
            | some d => cases hd : Dict.get? d (pyRound (m.focalRatio * 36)) <;> simp [hd, stored]
            | none => rfl
  | model mk n =>
    simp only [Dict.get?_mapVals]
    cases t.get? (norm m.make) with
    | none => rfl
    | some v =>
      simp only [Option.map_some]
      by_cases h : norm m.make = mk
      · subst h
        simp only [if_true]
        cases v.all with
        | some c => simp [stored]
        | none =>
          cases v.model with
          | some d =>
            simp only [Option.map_some, Dict.get?_mapVals]
            cases d.get? (norm m.model) with
            | none => rfl
            | some c => by_cases h2 : norm m.model = n <;> simp [stored, h2]
          | none =>
            simp only [Option.map_none]
            cases v.focal with
            | some d => cases hd : Dict.get? d (pyRound (m.focalRatio * 36)) <;> simp [hd, stored]
            | none => rfl
      · simp only [h, if_false]
        cases v.all with
        | some c => simp [stored, h]
        | none =>
          simp only
          cases v.model with
          | some d => cases hd : Dict.get? d (norm m.model) <;> simp [hd, stored, h]
          | none =>
            cases v.focal with
            | some d => cases hd : Dict.get? d (pyRound (m.focalRatio * 36)) <;> simp [hd, stored]
            | none => rfl
  | focal mk f =>
    simp only [Dict.get?_mapVals]
    cases t.get? (norm m.make) with
    | none => rfl
    | some v =>
      simp only [Option.map_some]
      by_cases h : norm m.make = mk
      · subst h
        simp only [if_true]
        cases v.all with
        | some c => simp [stored]
        | none =>
          cases v.model with
          | some d => cases hd : Dict.get? d (norm m.model) <;> simp [hd, stored]
          | none =>
            cases v.focal with
            | some d =>
              simp only [Option.map_some, Dict.get?_mapVals]
              cases d.get? (pyRound (m.focalRatio * 36)) with
              | none => rfl
              | some c => by_cases h2 : pyRound (m.focalRatio * 36) = f <;> simp [stored, h2]
            | none => rfl
      · simp only [h, if_false]
        cases v.all with
        | some c => simp [stored, h]
        | none =>
          simp only
          cases v.model with
          | some d => cases hd : Dict.get? d (norm m.model) <;> simp [hd, stored, h]
          | none =>
            cases v.focal with
            | some d => cases hd : Dict.get? d (pyRound (m.focalRatio * 36)) <;> simp [hd, stored, h]
            | none => rfl

/-- The place in the table that an image uses. -/
def slotOf (t : Table) (m : ImgMeta) : Option Slot := (hardCoded t m).map Prod.fst

/-- The calibration at a place after the images `l`: if it had no projection type, it has that of the
first image that used it. -/
def evolved (t : Table) (l : List ImgMeta) (q : Slot × Calib) : Slot × Calib :=
  if usable q.2 ∧ q.2.ptype = none then
    match l.find? (fun m => slotOf t m = some q.1) with
    | some m => (q.1, { q.2 with ptype := some (lower m.projection) })
    | none => q
  else q

theorem step_table (prior : ℚ) (t : Table) (m : ImgMeta) (q : Slot × Calib) (m' : ImgMeta)
    (hq : hardCoded t m' = some q) :
    hardCoded (cameraFromExif prior t m).2 m' = some (evolved t [m] q) ∧
      slotOf (cameraFromExif prior t m).2 = slotOf t := by
  have hslot : ∀ (s : Slot) (pt : String), slotOf (setType t s pt) = slotOf t := by
    intro s pt
    funext m''
    unfold slotOf
    rw [hardCoded_setType]
    cases hardCoded t m'' <;> rfl
  unfold cameraFromExif calibration
  simp only
  cases hm : hardCoded t m with
  | none =>
    refine ⟨?_, rfl⟩
    have : slotOf t m ≠ some q.1 := by simp [slotOf, hm]
    simp only [hq, evolved, List.find?_cons, this, decide_false]
    split <;> rfl
  | some p =>
    obtain ⟨s, c⟩ := p
    simp only
    by_cases hu : usable c = true
    · simp only [hu, if_true]
      cases hc : c.ptype with
      | some x =>
        refine ⟨?_, rfl⟩
        by_cases hs : s = q.1
        · have hcq : c = q.2 := by
            -- the same place holds the same calibration
            exact same_slot t m m' s c q hm hq hs
          simp [hq, evolved, ← hcq, hc]
        · have : slotOf t m ≠ some q.1 := by simp [slotOf, hm, hs]
          simp only [hq, evolved, List.find?_cons, this, decide_false]
          split <;> rfl
      | none =>
        refine ⟨?_, hslot _ _⟩
        rw [hardCoded_setType, hq]
        by_cases hs : s = q.1
        · have hcq : c = q.2 := same_slot t m m' s c q hm hq hs
          have hsl : slotOf t m = some q.1 := by simp [slotOf, hm, hs]
          simp [stored, evolved, ← hcq, hc, hu, hs, hsl]
        · have : slotOf t m ≠ some q.1 := by simp [slotOf, hm, hs]
          simp only [Option.map_some, stored, evolved, List.find?_cons, this, decide_false,
            Ne.symm hs, if_false]
          split <;> rfl
    · refine ⟨?_, by simp [hu]⟩
      simp only [hu, Bool.false_eq_true, if_false]
      by_cases hs : s = q.1
      · have hcq : c = q.2 := same_slot t m m' s c q hm hq hs
        simp [hq, evolved, ← hcq, hu]
      · have : slotOf t m ≠ some q.1 := by simp [slotOf, hm, hs]
        simp only [hq, evolved, List.find?_cons, this, decide_false]
        split <;> rfl
where
  same_slot (t : Table) (m m' : ImgMeta) (s : Slot) (c : Calib) (q : Slot × Calib)
      (hm : hardCoded t m = some (s, c)) (hq : hardCoded t m' = some q) (hs : s = q.1) : c = q.2 := by
    subst hs
    obtain ⟨s, c'⟩ := q
    simp only at hm ⊢
    have key : ∀ (m : ImgMeta) (s : Slot) (c : Calib), hardCoded t m = some (s, c) →
        (match s with
          | .all mk => (t.get? mk).bind (fun v => v.all)
          | .model mk n => (t.get? mk).bind (fun v => v.model.bind (fun d => d.get? n))
          | .focal mk f => (t.get? mk).bind (fun v => v.focal.bind (fun d => d.get? f))) = some c := by
      intro m s c h
      unfold hardCoded at h
      cases hg : t.get? (norm m.make) with
      | none => simp [hg] at h
      | some v =>
        simp only [hg] at h
        cases ha : v.all with
        | some a => simp [ha] at h; obtain ⟨rfl, rfl⟩ := h; simp [hg, ha]
        | none =>
          simp only [ha] at h
          cases hmo : v.model with
          | some d =>
            simp only [hmo] at h
            obtain ⟨x, hx, he⟩ := Option.map_eq_some_iff.1 h
            cases he
            simp [hg, hmo, hx]
          | none =>
            simp only [hmo] at h
            cases hf : v.focal with
            | some d =>
              simp only [hf] at h
              obtain ⟨x, hx, he⟩ := Option.map_eq_some_iff.1 h
              cases he
              simp [hg, hf, hx]
            | none => simp [hf] at h
    have h1 := key m s c hm
    have h2 := key m' s c' hq
    rw [h1] at h2
    exact Option.some.inj h2

theorem step_none (prior : ℚ) (t : Table) (m m' : ImgMeta) (hq : hardCoded t m' = none) :
    hardCoded (cameraFromExif prior t m).2 m' = none := by
  unfold cameraFromExif calibration
  simp only
  split
  · split
    · split
      · exact hq
      · rw [hardCoded_setType, hq]; rfl
    · exact hq
  · exact hq

theorem step_slot (prior : ℚ) (t : Table) (m : ImgMeta) :
    slotOf (cameraFromExif prior t m).2 = slotOf t := by
  funext m'
  cases h : hardCoded t m' with
  | none => simp [slotOf, h, step_none prior t m m' h]
  | some q => rw [(step_table prior t m q m' h).2]

theorem table_none (prior : ℚ) (t : Table) (l : List ImgMeta) (m : ImgMeta) (h : hardCoded t m = none) :
    hardCoded (tableAfter prior t l) m = none := by
  unfold tableAfter
  induction l generalizing t with
  | nil => exact h
  | cons a l ih => exact ih _ (step_none prior t a m h)

theorem table_some (prior : ℚ) (t : Table) (l : List ImgMeta) (m : ImgMeta) (q : Slot × Calib)
    (h : hardCoded t m = some q) : hardCoded (tableAfter prior t l) m = some (evolved t l q) := by
  unfold tableAfter
  induction l generalizing t q with
  | nil => rw [List.foldl_nil, h]; simp [evolved]
  | cons a l ih =>
    have h1 := (step_table prior t a q m h).1
    rw [List.foldl_cons]
    rw [ih _ _ h1]
    congr 1
    have hsl := step_slot prior t a
    unfold evolved
    by_cases hu : usable q.2 = true ∧ q.2.ptype = none
    · simp only [hu, and_self, if_true, List.find?_cons, List.find?_nil]
      by_cases ha : slotOf t a = some q.1
      · simp [ha]
      · simp only [ha, decide_false, hsl]
        rw [if_pos hu]
    · simp only [if_neg hu]

/-- The camera depends on the table only through the calibration found in it. -/
theorem camera_congr (prior : ℚ) (t t' : Table) (m : ImgMeta) (h : hardCoded t' m = hardCoded t m) :
    (cameraFromExif prior t' m).1 = (cameraFromExif prior t m).1 := by
  unfold cameraFromExif calibration
  simp only [h]
  cases hardCoded t m with
  | none => rfl
  | some q =>
    obtain ⟨s, c⟩ := q
    simp only
    by_cases hu : usable c = true
    · simp only [hu, if_true]
      cases c.ptype <;> rfl
    · simp [hu]

/-- C66. The camera made for an image does not depend on the images processed before it, unless a
calibration of the table without projection type was used before by an image with another one. -/
theorem C66_history (prior : ℚ) (t : Table) (before : List ImgMeta) (m : ImgMeta)
    (h : ∀ s c, hardCoded t m = some (s, c) → c.ptype = none →
      ∀ m' ∈ before, slotOf t m' = some s → lower m'.projection = lower m.projection) :
    (cameraFromExif prior (tableAfter prior t before) m).1 = (cameraFromExif prior t m).1 := by
  cases hm : hardCoded t m with
  | none => exact camera_congr _ _ _ _ (by rw [table_none _ _ _ _ hm, hm])
  | some q =>
    obtain ⟨s, c⟩ := q
    have ht := table_some prior t before m _ hm
    by_cases hu : usable c = true ∧ c.ptype = none
    · cases hf : before.find? (fun m' => slotOf t m' = some s) with
      | none =>
        refine camera_congr _ _ _ _ ?_
        rw [ht, hm]; simp [evolved, hf]
      | some m' =>
        have hmem := List.mem_of_find?_eq_some hf
        have hsl : slotOf t m' = some s := by simpa using List.find?_some hf
        have hp := h s c hm hu.2 m' hmem hsl
        have he : hardCoded (tableAfter prior t before) m =
            some (s, { c with ptype := some (lower m.projection) }) := by
          rw [ht]; simp [evolved, hf, hu, hp]
        have hus : usable { c with ptype := some (lower m.projection) } = true := by
          simp [usable]
        unfold cameraFromExif calibration
        simp only [he, hm, hus, if_true, hu.1, hu.2]
    · refine camera_congr _ _ _ _ ?_
      rw [ht, hm]; simp only [evolved, if_neg hu]

/-- C66. Why the condition is needed: once an image used a calibration of the table that has no projection
type, every later image that uses it gets that image's projection type, whatever its own. -/
theorem C66_first_wins (prior : ℚ) (t : Table) (before : List ImgMeta) (m first : ImgMeta) (s : Slot)
    (c : Calib) (hm : hardCoded t m = some (s, c)) (hu : c.params ≠ []) (hp : c.ptype = none)
    (hf : before.find? (fun m' => slotOf t m' = some s) = some first) :
    (calibration prior (tableAfter prior t before) m).1 =
      { c with ptype := some (lower first.projection) } := by
  have hus : usable c = true := by
    unfold usable
    cases h : c.params with
    | nil => exact absurd h hu
    | cons a l => simp
  have he : hardCoded (tableAfter prior t before) m =
      some (s, { c with ptype := some (lower first.projection) }) := by
    rw [table_some prior t before m _ hm]; simp [evolved, hf, hus, hp]
  have hus' : usable { c with ptype := some (lower first.projection) } = true := by simp [usable]
  unfold calibration
  simp only [he, hus', if_true]

/-- The entry of the shipped table for the maker `xiaoyi`. -/
def shipped : Table :=
  [("xiaoyi", { all := some { params := [("focal", 1 / 2), ("k1", -19 / 100), ("k2", 28 / 1000)] } })]

/-- A panorama and an ordinary photo by that maker. -/
def pano : ImgMeta :=
  { make := "Xiaoyi", model := "Mijia", width := 7168, height := 3584, projection := "equirectangular",
    focalRatio := 0, camera := "p" }
@[inherit_doc pano]
def photo : ImgMeta :=
  { make := "XIAOYI", model := "YDXJ 1", width := 4608, height := 3456, focalRatio := 1 / 2,
    camera := "c" }

/-- C66. With the shipped table: after a panorama by the same maker, an ordinary photo gets a spherical camera;
alone it gets a perspective one. -/
theorem C66_pollution (prior : ℚ) :
    photo.projection = "perspective" ∧
      ((cameraFromExif prior shipped photo).1.map (fun c => c.ptype)) = some .perspective ∧
      ((cameraFromExif prior (tableAfter prior shipped [pano]) photo).1.map (fun c => c.ptype)) =
        some .spherical := by
  have hm : hardCoded shipped photo = some (.all "xiaoyi",
      { params := [("focal", 1 / 2), ("k1", -19 / 100), ("k2", 28 / 1000)] }) := by decide +kernel
  refine ⟨rfl, ?_, ?_⟩
  · have h : (calibration prior shipped photo).1 =
        { params := [("focal", 1 / 2), ("k1", -19 / 100), ("k2", 28 / 1000)]
          ptype := some "perspective" } := by
      unfold calibration
      simp only [hm]
      rfl
    unfold cameraFromExif
    simp only [h]
    decide +kernel
  · have h := C66_first_wins prior shipped [pano] photo pano (.all "xiaoyi") _ hm
      (by simp) rfl (by decide +kernel)
    unfold cameraFromExif
    simp only [h]
    decide +kernel

/-- C66. A maker with a list of models never uses its list by focal length: removing it changes nothing. -/
theorem C66_focal_list_unused (prior : ℚ) (t : Table) (m : ImgMeta) (mk : Maker) (d : Dict String Calib)
    (h : t.get? (norm m.make) = some mk) (hd : mk.model = some d) :
    (cameraFromExif prior (Dict.set t (norm m.make) { mk with focal := none }) m).1 =
      (cameraFromExif prior t m).1 := by
  refine camera_congr _ _ _ _ ?_
  unfold hardCoded
  rw [Dict.get?_set_self, h]
  simp only [hd]

theorem toLower_not_upper (c : Char) : ¬ c.toLower.isUpper := by
  unfold Char.toLower
  split
  · rename_i h
    intro h'
    simp only [Char.isUpper, Bool.and_eq_true, decide_eq_true_eq] at h'
    have h1 := h'.1
    have h2 := h'.2
    simp only [UInt32.le_iff_toNat_le, UInt32.toNat_add] at h h1 h2
    have e65 : ('A' : Char).val.toNat = 65 := rfl
    have e90 : ('Z' : Char).val.toNat = 90 := rfl
    simp at h h1 h2
    omega
  · rename_i h
    simp only [Char.isUpper, Bool.and_eq_true, decide_eq_true_eq]
    exact h

/-- C66. A maker listed with a capital letter is never found. -/
theorem C66_capitals (prior : ℚ) (t : Table) (m : ImgMeta) (k : String) (c : Char)
    (hc : c ∈ k.toList) (hu : c.isUpper) :
    (cameraFromExif prior (Dict.erase t k) m).1 = (cameraFromExif prior t m).1 := by
  have hne : norm m.make ≠ k := by
    rintro rfl
    unfold norm at hc
    rw [String.toList_ofList] at hc
    obtain ⟨d, -, rfl⟩ := List.mem_map.1 hc
    exact toLower_not_upper d hu
  refine camera_congr _ _ _ _ ?_
  unfold hardCoded
  rw [Dict.get?_erase, if_neg (Ne.symm hne)]

/-- The projection types and what their cameras are. -/
def namedTypes : List (String × PType) :=
  [("perspective", .perspective), ("brown", .brown), ("fisheye", .fisheye),
   ("fisheye_opencv", .fisheyeOpencv), ("fisheye62", .fisheye62), ("fisheye624", .fisheye624),
   ("radial", .radial), ("simple_radial", .simpleRadial), ("spherical", .spherical),
   ("equirectangular", .spherical)]

/-- The focal length that an image without calibration gets: its own, else the configured one. -/
def focalFor (prior : ℚ) (m : ImgMeta) (pt : String) : ℚ :=
  if pt ∈ ["perspective", "fisheye"] then (if m.focalRatio = 0 then prior else m.focalRatio)
  else if m.focalX.getD m.focalRatio = 0 then prior else m.focalX.getD m.focalRatio

/-- Unfold everything for one projection type. -/
local macro "finish_default" a:ident b:ident c:ident : tactic =>
  `(tactic| simp [xyTypes, defaultCalib, buildCam, $a:ident, Dict.get?, pyDiv, $b:ident, $c:ident, createPerspective,
      createBrown, createFisheye, createFisheyeOpencv, createFisheye62, createFisheye624, createRadial,
      createSimpleRadial, createSpherical, isPanorama, Cam.get, getValue, List.mapM_cons, List.mapM_nil])

set_option maxHeartbeats 4000000 in
/-- C66. Without an entry in the table, every supported type except `dual` gives a camera of that type with
the name and size of the image, the focal length of the image (or the configured one), aspect ratio 1
and no distortion. -/
theorem C66_default (prior : ℚ) (hprior : prior ≠ 0) (t : Table) (m : ImgMeta) (h : hardCoded t m = none)
    (pt : String) (ty : PType) (hl : lower m.projection = pt) (hty : (pt, ty) ∈ namedTypes) :
    ∃ c, (cameraFromExif prior t m).1 = some c ∧ c.ptype = ty ∧ c.id = m.camera ∧ c.width = m.width ∧
      c.height = m.height ∧
      (ty ≠ .spherical → c.get .focal = some (focalFor prior m pt)) ∧
      (∀ v, c.get .aspectRatio = some v → v = 1) ∧
      ∀ p ∈ [Param.k1, .k2, .k3, .k4, .k5, .k6, .p1, .p2, .s0, .s1, .s2, .s3], ∀ v,
        c.get p = some v → v = 0 := by
  have hl2 : lower pt = pt := by
    simp only [namedTypes, List.mem_cons, Prod.mk.injEq, List.not_mem_nil, or_false] at hty
    rcases hty with ⟨rfl, -⟩ | ⟨rfl, -⟩ | ⟨rfl, -⟩ | ⟨rfl, -⟩ | ⟨rfl, -⟩ | ⟨rfl, -⟩ | ⟨rfl, -⟩ |
      ⟨rfl, -⟩ | ⟨rfl, -⟩ | ⟨rfl, -⟩ <;> decide +kernel
  unfold cameraFromExif calibration
  simp only [h, hl]
  simp only [namedTypes, List.mem_cons, Prod.mk.injEq, List.not_mem_nil, or_false] at hty
  simp only [focalFor, focalRatioCalib, focalXyCalib]
  generalize m.focalX.getD m.focalRatio = fx
  generalize m.focalRatio = fr
  generalize m.cx.getD 0 = x0
  generalize m.cy.getD 0 = y0
  rcases hty with ⟨rfl, rfl⟩ | ⟨rfl, rfl⟩ | ⟨rfl, rfl⟩ | ⟨rfl, rfl⟩ | ⟨rfl, rfl⟩ | ⟨rfl, rfl⟩ |
    ⟨rfl, rfl⟩ | ⟨rfl, rfl⟩ | ⟨rfl, rfl⟩ | ⟨rfl, rfl⟩
  · by_cases hf : fr = 0 <;> finish_default hl2 hf hprior
  · by_cases hf : fx = 0 <;> finish_default hl2 hf hprior
  · by_cases hf : fr = 0 <;> finish_default hl2 hf hprior
  · by_cases hf : fx = 0 <;> finish_default hl2 hf hprior
  · by_cases hf : fx = 0 <;> finish_default hl2 hf hprior
  · by_cases hf : fx = 0 <;> finish_default hl2 hf hprior
  · by_cases hf : fx = 0 <;> finish_default hl2 hf hprior
  · by_cases hf : fx = 0 <;> finish_default hl2 hf hprior
  · by_cases hf : fr = 0 <;> finish_default hl2 hf hprior
  · by_cases hf : fr = 0 <;> finish_default hl2 hf hprior

/-- C66. The type `dual` cannot be chosen for such an image: there is no transition and the call raises. -/
theorem C66_dual (prior : ℚ) (t : Table) (m : ImgMeta) (h : hardCoded t m = none)
    (hl : lower m.projection = "dual") : (cameraFromExif prior t m).1 = none := by
  have hl2 : lower "dual" = "dual" := by decide +kernel
  unfold cameraFromExif calibration
  simp only [h, hl]
  by_cases hf : m.focalRatio = 0 <;>
  simp [xyTypes, focalRatioCalib, defaultCalib, buildCam, hl2, Dict.get?, hf]

/-- The hypotheses are met by an image of an unknown maker. -/
example : hardCoded shipped { photo with make := "Canon", projection := "Brown" } = none ∧
    (lower "Brown", PType.brown) ∈ namedTypes := by
  constructor
  · decide +kernel
  · decide +kernel

/-- C66. The key of the table of focal lengths is the whole number nearest to the 35 mm focal length; halfway
it is the even one. -/
theorem C66_round (q : ℚ) :
    |q - pyRound q| ≤ 1 / 2 ∧ (|q - pyRound q| = 1 / 2 → pyRound q % 2 = 0) := by
  have h1 := Int.floor_le q
  have h2 := Int.lt_floor_add_one q
  unfold pyRound
  simp only
  split_ifs with a b c
  · rw [abs_of_nonneg (by linarith)]
    exact ⟨by linarith, fun h => by linarith⟩
  · push_cast
    rw [abs_of_nonpos (by linarith)]
    exact ⟨by linarith, fun h => by linarith⟩
  · rw [abs_of_nonneg (by linarith)]
    exact ⟨by linarith, fun _ => c⟩
  · push_cast
    rw [abs_of_nonpos (by linarith)]
    exact ⟨by linarith, fun _ => by omega⟩

example : pyRound (33 / 2) = 16 ∧ pyRound (35 / 2) = 18 := by decide +kernel

end Verif.Calibration
