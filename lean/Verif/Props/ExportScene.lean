import Verif.Model.ExportScene
import Verif.Props.Tracking
import Verif.Props.ExportColmap

/-!
Property C117: the OpenMVS scene and the PMVS visibility file.
-/
set_option linter.unusedSectionVars false
set_option linter.unusedSimpArgs false
set_option linter.unusedVariables false
namespace Verif.ExportScene
open Verif.TM

variable {Id C T P O : Type} [DecidableEq Id] [DecidableEq C] [DecidableEq T]

/-! ### Specification -/

/-- The user did not exclude the shot. -/
def Kept (only : Option (List Id)) (i : Id) : Prop := ∀ l, only = some l → i ∈ l

/-- The shots that can be exported: kept, with a perspective camera. -/
noncomputable def Chosen (cameras : Dict C Cam) (only : Option (List Id)) (shots : List (Id × Shot C P)) : List (Id × Shot C P) :=
  open Classical in shots.filter (fun e => decide (Kept only e.1 ∧ ∃ cam, cameras.get? e.2.camera = some cam ∧ cam.perspective = true))

/-- Some kept shot sees the point. -/
def Seen (tm : TM Id T O) (only : Option (List Id)) (t : T) : Prop :=
  ∃ d s, tm.getTrackObservations t = .ok d ∧ s ∈ Dict.keys d ∧ Kept only s

/-- The pixel where a pinhole camera with the centre in the middle of the pixel grid sees a point. -/
noncomputable def Pinhole (c : Cam) (x y z : ℝ) : ℝ × ℝ :=
  ((max c.width c.height : ℕ) * (c.focal * (x / z)) + ((c.width : ℝ) - 1) / 2, (max c.width c.height : ℕ) * (c.focal * (y / z)) + ((c.height : ℝ) - 1) / 2)

/-! ### Loops -/

theorem foldl_inv {α β : Type} (g : β → α → β) (Inv : List α → β → Prop) (step : ∀ D a x, Inv D a → Inv (D ++ [x]) (g a x)) (L : List α) :
    ∀ D a, Inv D a → Inv (D ++ L) (L.foldl g a) := by
  induction L with
  | nil => intro D a h; simpa using h
  | cons x t ih =>
    intro D a h
    have := ih _ _ (step D a x h)
    rwa [List.append_assoc] at this

theorem filter_one {α : Type} (p : α → Bool) (e : α) : [e].filter p = if p e = true then [e] else [] := by
  by_cases h : p e = true <;> simp [h]

theorem modify_get {α : Type} (l : List α) (f : α → α) (k j : ℕ) : (l.modify k f)[j]? = if k = j then (l[j]?).map f else l[j]? := by
  rw [List.getElem?_modify]
  by_cases h : k = j
  · simp [h]
  · simp [h]

theorem exported_iff (only : Option (List Id)) (i : Id) : exported only i = true ↔ Kept only i := by
  unfold exported Kept
  cases only with
  | none => simp
  | some l => simp

theorem isPerspective_iff (cameras : Dict C Cam) (c : C) : isPerspective cameras c = true ↔ ∃ cam, cameras.get? c = some cam ∧ cam.perspective = true := by
  unfold isPerspective
  cases cameras.get? c with
  | none => simp
  | some cam => simp

/-- The perspective cameras. -/
def pcams (cameras : List (C × Cam)) : List (C × Cam) := cameras.filter (fun e => e.2.perspective)

theorem index_append {K V : Type} [DecidableEq K] (L : List (K × V)) (m : Dict K ℕ) (e : K × V) (hnd : ((L ++ [e]).map Prod.fst).Nodup)
    (h : ∀ i n, m.get? i = some n ↔ (L[n]?).map Prod.fst = some i) :
    ∀ i n, (m.set e.1 L.length).get? i = some n ↔ ((L ++ [e])[n]?).map Prod.fst = some i := by
  intro i n
  have hne : ∀ n' : ℕ, (L[n']?).map Prod.fst ≠ some e.1 := by
    intro n' hn
    obtain ⟨y, hy, hy1⟩ := Option.map_eq_some_iff.1 hn
    rw [List.map_append, List.nodup_append] at hnd
    exact hnd.2.2 y.1 (List.mem_map_of_mem (List.mem_of_getElem? hy)) e.1 (by simp) hy1
  rw [Dict.get?_set]
  by_cases hi : e.1 = i
  · subst hi
    rw [if_pos rfl]
    constructor
    · intro hn
      obtain rfl := Option.some.inj hn
      simp
    · intro hn
      rcases lt_trichotomy n L.length with hl | hl | hl
      · rw [List.getElem?_append_left hl] at hn
        exact absurd hn (hne n)
      · rw [hl]
      · rw [List.getElem?_eq_none (by rw [List.length_append, List.length_singleton]; omega)] at hn
        exact absurd hn (by simp)
  · rw [if_neg hi, h]
    rcases lt_trichotomy n L.length with hl | hl | hl
    · rw [List.getElem?_append_left hl]
    · subst hl
      simp [hi]
    · rw [List.getElem?_eq_none (l := L) (by omega), List.getElem?_eq_none (l := L ++ [e]) (by rw [List.length_append, List.length_singleton]; omega)]

/-- What holds after the cameras `D`. -/
structure CamInv (D : List (C × Cam)) (x : Exporter Id C P) : Prop where
  platforms : x.platforms = (pcams D).map (fun c => ⟨c.1, calibration c.2, c.2.width, c.2.height, []⟩)
  ids : ∀ c n, x.platformIds.get? c = some n ↔ ((pcams D)[n]?).map Prod.fst = some c
  images : x.images = []
  vertices : x.vertices = []
  imageIds : x.imageIds = []

theorem pcams_append (D : List (C × Cam)) (e : C × Cam) : pcams (D ++ [e]) = if e.2.perspective then pcams D ++ [e] else pcams D := by
  unfold pcams
  rw [List.filter_append]
  by_cases h : e.2.perspective = true <;> simp [h]

theorem pcams_nodup (D : List (C × Cam)) (h : (D.map Prod.fst).Nodup) : ((pcams D).map Prod.fst).Nodup :=
  (List.Sublist.map _ (List.filter_sublist)).nodup h

theorem cam_loop (cameras : Dict C Cam) (hw : cameras.Wf) : CamInv cameras (cameras.foldl addCamera (⟨[], [], [], [], []⟩ : Exporter Id C P)) := by
  have key := foldl_inv (addCamera (Id := Id) (P := P)) (fun D x => (D.map Prod.fst).Nodup → CamInv D x) ?_ cameras [] ⟨[], [], [], [], []⟩
    (fun _ => ⟨rfl, fun c n => by simp [pcams], rfl, rfl, rfl⟩)
  · rw [List.nil_append] at key
    exact key hw
  · intro D x e h hnd
    have hnd' : (D.map Prod.fst).Nodup := by
      rw [List.map_append] at hnd
      exact (List.nodup_append.1 hnd).1
    have I := h hnd'
    by_cases hp : e.2.perspective = true
    · have hpc : pcams (D ++ [e]) = pcams D ++ [e] := by rw [pcams_append, if_pos hp]
      have hlen : x.platforms.length = (pcams D).length := by rw [I.platforms, List.length_map]
      unfold addCamera
      rw [if_pos hp]
      refine ⟨?_, ?_, I.images, I.vertices, I.imageIds⟩
      · show x.platforms ++ _ = _
        rw [hpc, List.map_append, I.platforms]
        rfl
      · have := index_append (pcams D) x.platformIds e (by rw [← hpc]; exact pcams_nodup _ hnd) I.ids
        rw [hpc, ← hlen] at *
        exact this
    · have hpc : pcams (D ++ [e]) = pcams D := by rw [pcams_append, if_neg hp]
      unfold addCamera
      rw [if_neg hp]
      exact ⟨by rw [hpc]; exact I.platforms, by rw [hpc]; exact I.ids, I.images, I.vertices, I.imageIds⟩

/-- The platforms after some shots. -/
noncomputable def plat (S : List (Id × Shot C P)) (c : C × Cam) : Platform C P :=
  ⟨c.1, calibration c.2, c.2.width, c.2.height, (S.filter (fun e => e.2.camera = c.1)).map (fun e => e.2.pose)⟩

/-- An image is the image of a shot. -/
structure IsImage (platforms : List (Platform C P)) (e : Id × Shot C P) (im : Image Id) : Prop where
  name : im.name = e.1
  masked : e.2.hasMask = true → im.mask = .file e.1
  unmasked : e.2.hasMask = false → im.mask = .workingDirectory
  pose : ∃ pl, platforms[im.platformID]? = some pl ∧ pl.name = e.2.camera ∧ pl.poses[im.poseID]? = some e.2.pose

/-- What holds after the shots `D`. -/
structure ShotInv (cameras : Dict C Cam) (only : Option (List Id)) (D : List (Id × Shot C P)) (x : Exporter Id C P) : Prop where
  platforms : x.platforms = (pcams cameras).map (plat (Chosen cameras only D))
  ids : ∀ c n, x.platformIds.get? c = some n ↔ ((pcams cameras)[n]?).map Prod.fst = some c
  images : List.Forall₂ (IsImage x.platforms) (Chosen cameras only D) x.images
  vertices : x.vertices = []
  imageIds : ∀ i n, x.imageIds.get? i = some n ↔ ((Chosen cameras only D)[n]?).map Prod.fst = some i

theorem chosen_append (cameras : Dict C Cam) (only : Option (List Id)) (D : List (Id × Shot C P)) (e : Id × Shot C P) :
    Chosen cameras only (D ++ [e]) = if exported only e.1 = true ∧ isPerspective cameras e.2.camera = true then Chosen cameras only D ++ [e] else Chosen cameras only D := by
  unfold Chosen
  rw [List.filter_append]
  by_cases h : exported only e.1 = true ∧ isPerspective cameras e.2.camera = true
  · rw [if_pos h]
    rw [exported_iff, isPerspective_iff] at h
    congr 1
    rw [filter_one, if_pos (by simpa only [decide_eq_true_eq] using h)]
  · rw [if_neg h]
    rw [exported_iff, isPerspective_iff] at h
    rw [filter_one, if_neg (by simpa only [decide_eq_true_eq] using h), List.append_nil]

theorem plat_append (S : List (Id × Shot C P)) (e : Id × Shot C P) (c : C × Cam) :
    plat (S ++ [e]) c = if e.2.camera = c.1 then pushPose e.2.pose (plat S c) else plat S c := by
  by_cases h : e.2.camera = c.1
  · rw [if_pos h]
    simp [plat, pushPose, List.filter_append, h]
  · rw [if_neg h]
    simp [plat, List.filter_append, h]

theorem modify_eq (PC : List (C × Cam)) (hnd : (PC.map Prod.fst).Nodup) (S : List (Id × Shot C P)) (e : Id × Shot C P) (k : ℕ)
    (hk : (PC[k]?).map Prod.fst = some e.2.camera) : (PC.map (plat S)).modify k (pushPose e.2.pose) = PC.map (plat (S ++ [e])) := by
  apply List.ext_getElem?
  intro j
  rw [modify_get, List.getElem?_map, List.getElem?_map]
  cases hj : PC[j]? with
  | none => simp
  | some c =>
    have hiff : k = j ↔ e.2.camera = c.1 := by
      constructor
      · rintro rfl
        rw [hj] at hk
        exact (Option.some.inj hk).symm
      · intro h
        obtain ⟨y, hy, hy1⟩ := Option.map_eq_some_iff.1 hk
        have a1 : (PC.map Prod.fst)[k]? = some e.2.camera := by rw [List.getElem?_map, hk]
        have a2 : (PC.map Prod.fst)[j]? = some e.2.camera := by rw [List.getElem?_map, hj, h]; rfl
        exact (List.getElem?_inj (by
          rw [List.length_map]; exact (List.getElem?_eq_some_iff.1 hy).1) hnd).1 (a1.trans a2.symm)
    simp only [Option.map_some]
    rw [plat_append]
    by_cases h : k = j
    · rw [if_pos h, if_pos (hiff.1 h)]
    · rw [if_neg h, if_neg (fun hh => h (hiff.2 hh))]

theorem shot_loop (cameras : Dict C Cam) (hw : cameras.Wf) (only : Option (List Id)) (shots : Dict Id (Shot C P)) (hs : shots.Wf) (x0 : Exporter Id C P)
    (h0 : CamInv cameras x0) : ShotInv cameras only shots (shots.foldl (addShot cameras only) x0) := by
  have key := foldl_inv (addShot cameras only) (fun D x => (D.map Prod.fst).Nodup → ShotInv cameras only D x) ?_ shots [] x0
    (fun _ => ⟨?_, h0.ids, ?_, h0.vertices, ?_⟩)
  · rw [List.nil_append] at key
    exact key hs
  · intro D x e h hnd
    have hnd' : (D.map Prod.fst).Nodup := by
      rw [List.map_append] at hnd
      exact (List.nodup_append.1 hnd).1
    have I := h hnd'
    unfold addShot
    by_cases h1 : exported only e.1 = true
    · by_cases h2 : isPerspective cameras e.2.camera = true
      · rw [if_pos h1, if_pos h2]
        have hch : Chosen cameras only (D ++ [e]) = Chosen cameras only D ++ [e] := by rw [chosen_append, if_pos ⟨h1, h2⟩]
        obtain ⟨cam, hcam, hper⟩ := (isPerspective_iff cameras e.2.camera).1 h2
        have hmem : (e.2.camera, cam) ∈ pcams cameras := List.mem_filter.2 ⟨Dict.mem_of_get? hcam, hper⟩
        obtain ⟨k, hk⟩ := List.mem_iff_getElem?.1 hmem
        have hkid : x.platformIds.get? e.2.camera = some k := (I.ids _ _).2 (by rw [hk]; rfl)
        have hplk : x.platforms[k]? = some (plat (Chosen cameras only D) (e.2.camera, cam)) := by
          rw [I.platforms, List.getElem?_map, hk]; rfl
        have hmod : x.platforms.modify k (pushPose e.2.pose) = (pcams cameras).map (plat (Chosen cameras only (D ++ [e]))) := by
          rw [I.platforms, hch]
          exact modify_eq _ (pcams_nodup _ hw) _ e k (by rw [hk]; rfl)
        have hlen : x.images.length = (Chosen cameras only D).length := I.images.length_eq.symm
        have hform : addImage x e.1 e.2 =
            { x with
              platforms := x.platforms.modify k (pushPose e.2.pose)
              imageIds := x.imageIds.set e.1 x.images.length
              images := x.images ++ [⟨e.1, if e.2.hasMask then .file e.1 else .workingDirectory, k, (plat (Chosen cameras only D) (e.2.camera, cam)).poses.length⟩] } := by
          unfold addImage
          simp only [hkid, Option.getD_some, hplk, Option.map_some]
        rw [hform]
        have hsub : List.Sublist (Chosen cameras only (D ++ [e])) (D ++ [e]) := List.filter_sublist
        have hndc : ((Chosen cameras only (D ++ [e])).map Prod.fst).Nodup := (List.Sublist.map _ hsub).nodup hnd
        refine ⟨hmod, I.ids, ?_, I.vertices, ?_⟩
        · show List.Forall₂ (IsImage (x.platforms.modify k (pushPose e.2.pose))) _ (x.images ++ _)
          rw [hch]
          refine List.rel_append (I.images.imp ?_) (List.Forall₂.cons ?_ List.Forall₂.nil)
          · intro a im ha
            refine ⟨ha.name, ha.masked, ha.unmasked, ?_⟩
            obtain ⟨pl, p1, p2, p3⟩ := ha.pose
            by_cases hkk : k = im.platformID
            · refine ⟨pushPose e.2.pose pl, ?_, p2, ?_⟩
              · rw [modify_get, if_pos hkk, p1]; rfl
              · show (pl.poses ++ [e.2.pose])[im.poseID]? = _
                rw [List.getElem?_append_left (List.getElem?_eq_some_iff.1 p3).1, p3]
            · refine ⟨pl, ?_, p2, p3⟩
              rw [modify_get, if_neg hkk, p1]
          · refine ⟨rfl, fun hm => by simp [hm], fun hm => by simp [hm], pushPose e.2.pose (plat (Chosen cameras only D) (e.2.camera, cam)), ?_, rfl, ?_⟩
            · show (x.platforms.modify k (pushPose e.2.pose))[k]? = _
              rw [modify_get, if_pos rfl, hplk]; rfl
            · show (_ ++ [e.2.pose])[_]? = _
              rw [List.getElem?_append_right (le_refl _)]
              simp
        · show ∀ i n, (x.imageIds.set e.1 x.images.length).get? i = some n ↔ _
          rw [hlen, hch]
          exact index_append _ _ e (by rw [← hch]; exact hndc) I.imageIds
      · rw [if_pos h1, if_neg h2]
        have hch : Chosen cameras only (D ++ [e]) = Chosen cameras only D := by rw [chosen_append, if_neg (fun h => h2 h.2)]
        exact ⟨by rw [hch]; exact I.platforms, I.ids, by rw [hch]; exact I.images, I.vertices, by rw [hch]; exact I.imageIds⟩
    · rw [if_neg h1]
      have hch : Chosen cameras only (D ++ [e]) = Chosen cameras only D := by rw [chosen_append, if_neg (fun h => h1 h.1)]
      exact ⟨by rw [hch]; exact I.platforms, I.ids, by rw [hch]; exact I.images, I.vertices, by rw [hch]; exact I.imageIds⟩
  · rw [h0.platforms]; rfl
  · rw [h0.images]; exact List.Forall₂.nil
  · intro i n
    rw [h0.imageIds]
    simp [Chosen]

theorem views_eq (L : List Id) : ∀ acc : Dict Id ℕ × List ℕ,
    (∀ i, ((L.foldl addView acc).1.get? i).getD 0 = (acc.1.get? i).getD 0) ∧ (L.foldl addView acc).2 = acc.2 ++ L.map (fun i => (acc.1.get? i).getD 0) := by
  induction L with
  | nil => intro acc; simp
  | cons y t ih =>
    intro acc
    have hg : ∀ i, ((acc.1.insertNew y 0).get? i).getD 0 = (acc.1.get? i).getD 0 := by
      intro i
      rw [Dict.get?_insertNew]
      split
      · rename_i hc
        subst hc
        cases hh : acc.1.get? y with
        | none => simp [Dict.has, hh]
        | some n => simp [Dict.has, hh]
      · rfl
    obtain ⟨h1, h2⟩ := ih (addView acc y)
    rw [List.foldl_cons]
    refine ⟨fun i => ?_, ?_⟩
    · rw [h1 i]
      exact hg i
    · rw [h2]
      simp only [addView, hg, List.map_cons, List.append_assoc, List.singleton_append]

/-- A vertex is a point, and its views the images of the kept shots that see it, or image 0 for the ones that have no image. -/
structure IsVertex (tm : TM Id T O) (only : Option (List Id)) (images : List (Image Id)) (p : T × (Fin 3 → ℝ)) (v : Vertex) : Prop where
  coords : v.X = p.2
  views : ∃ (d : Dict Id O) (shots : List Id), tm.getTrackObservations p.1 = .ok d ∧ shots.Sublist d.keys ∧ (∀ s, s ∈ shots ↔ s ∈ d.keys ∧ Kept only s) ∧
    List.Forall₂ (fun s k => (∃ im, images[k]? = some im ∧ im.name = s) ∨ (k = 0 ∧ ∀ im ∈ images, im.name ≠ s)) shots v.views

/-- What holds after the points `D`. -/
structure PointInv (tm : TM Id T O) (only : Option (List Id)) (x0 : Exporter Id C P) (D : List (T × (Fin 3 → ℝ))) (x : Exporter Id C P) : Prop where
  platforms : x.platforms = x0.platforms
  images : x.images = x0.images
  ids : ∀ i, (x.imageIds.get? i).getD 0 = (x0.imageIds.get? i).getD 0
  tracks : ∀ p ∈ D, ∃ d, tm.getTrackObservations p.1 = .ok d
  vertices : List.Forall₂ (IsVertex tm only x0.images) (open Classical in D.filter (fun p => decide (Seen tm only p.1))) x.vertices

theorem point_loop (tm : TM Id T O) (only : Option (List Id)) (cameras : Dict C Cam) (shots : Dict Id (Shot C P)) (x0 : Exporter Id C P)
    (h0 : ShotInv cameras only shots x0) (points : Dict T (Fin 3 → ℝ)) (x : Exporter Id C P) (h : points.foldlM (addPoint tm only) x0 = some x) :
    PointInv tm only x0 points x := by
  have hview : ∀ s, (∃ im, x0.images[(x0.imageIds.get? s).getD 0]? = some im ∧ im.name = s) ∨ ((x0.imageIds.get? s).getD 0 = 0 ∧ ∀ im ∈ x0.images, im.name ≠ s) := by
    intro s
    cases hg : x0.imageIds.get? s with
    | some n =>
      left
      obtain ⟨e, he, he1⟩ := Option.map_eq_some_iff.1 ((h0.imageIds s n).1 hg)
      obtain ⟨hn, _⟩ := List.getElem?_eq_some_iff.1 he
      have hn' : n < x0.images.length := by rw [← h0.images.length_eq]; exact hn
      refine ⟨x0.images[n], List.getElem?_eq_getElem hn', ?_⟩
      have := List.Forall₂.get h0.images hn hn'
      have hee : (Chosen cameras only shots)[n] = e := by
        rw [List.getElem?_eq_getElem hn] at he
        exact Option.some.inj he
      rw [List.get_eq_getElem, List.get_eq_getElem, hee] at this
      rw [this.name, he1]
    | none =>
      right
      refine ⟨rfl, fun im him hname => ?_⟩
      obtain ⟨n, hn⟩ := List.mem_iff_getElem?.1 him
      obtain ⟨hn', hn2⟩ := List.getElem?_eq_some_iff.1 hn
      have hnc : n < (Chosen cameras only shots).length := by rw [h0.images.length_eq]; exact hn'
      have := List.Forall₂.get h0.images hnc hn'
      rw [List.get_eq_getElem, List.get_eq_getElem, hn2] at this
      have : x0.imageIds.get? s = some n := by
        rw [h0.imageIds, List.getElem?_eq_getElem hnc, Option.map_some, ← this.name, hname]
      rw [hg] at this
      exact absurd this (by simp)
  have key := ExportColmap.foldlM_inv (addPoint tm only) (PointInv tm only x0) ?_ points [] x0 x
    ⟨rfl, rfl, fun _ => rfl, by simp, ?_⟩ h
  · rw [List.nil_append] at key
    exact key
  · intro D a p a' I hs
    unfold addPoint at hs
    cases hd : tm.getTrackObservations p.1 with
    | error e => rw [hd] at hs; exact absurd hs (by simp)
    | ok d =>
      rw [hd] at hs
      simp only at hs
      have hmem : ∀ s, s ∈ d.keys.filter (exported only) ↔ s ∈ d.keys ∧ Kept only s := by
        intro s
        rw [List.mem_filter, exported_iff]
      have htr : ∀ q ∈ D ++ [p], ∃ d, tm.getTrackObservations q.1 = .ok d := by
        intro q hq
        rcases List.mem_append.1 hq with h1 | h1
        · exact I.tracks q h1
        · rw [List.mem_singleton.1 h1]; exact ⟨d, hd⟩
      have hseen : Seen tm only p.1 ↔ d.keys.filter (exported only) ≠ [] := by
        constructor
        · rintro ⟨d', s, h1, h2, h3⟩ hnil
          rw [hd] at h1
          obtain rfl := Except.ok.inj h1
          have := (hmem s).2 ⟨h2, h3⟩
          rw [hnil] at this
          exact absurd this (by simp)
        · intro hne
          obtain ⟨s, hs'⟩ := List.exists_mem_of_ne_nil _ hne
          exact ⟨d, s, hd, ((hmem s).1 hs').1, ((hmem s).1 hs').2⟩
      by_cases he : d.keys.filter (exported only) = []
      · rw [if_pos (by rw [he]; rfl)] at hs
        obtain rfl := Option.some.inj hs
        refine ⟨I.platforms, I.images, I.ids, htr, ?_⟩
        rw [List.filter_append, filter_one, if_neg (by simpa using fun hh => hseen.1 hh he), List.append_nil]
        exact I.vertices
      · rw [if_neg (by simpa [List.isEmpty_iff] using he)] at hs
        obtain rfl := Option.some.inj hs
        obtain ⟨v1, v2⟩ := views_eq (d.keys.filter (exported only)) (a.imageIds, [])
        refine ⟨I.platforms, I.images, fun i => ?_, htr, ?_⟩
        · show (((d.keys.filter (exported only)).foldl addView (a.imageIds, [])).1.get? i).getD 0 = _
          rw [v1 i]
          exact I.ids i
        · rw [List.filter_append, filter_one, if_pos (by simpa using hseen.2 he)]
          refine List.rel_append I.vertices (List.Forall₂.cons ⟨rfl, d, _, hd, List.filter_sublist, hmem, ?_⟩ List.Forall₂.nil)
          show List.Forall₂ _ _ ((d.keys.filter (exported only)).foldl addView (a.imageIds, [])).2
          rw [v2, List.nil_append, List.forall₂_map_right_iff]
          refine List.forall₂_same.2 (fun s _ => ?_)
          show _ ∨ _
          simp only [I.ids]
          exact hview s
  · rw [h0.vertices]; exact List.Forall₂.nil

/-! ### The scene -/

/-- C117: there is one platform for each perspective camera, in their order, with the size of the camera, the poses of its exported shots in their
order, and a matrix that gives the pixel of the pinhole camera. -/
theorem C117_platforms (tm : TM Id T O) (only : Option (List Id)) (r : Rec Id C T P) (hc : r.cameras.Wf) (hs : r.shots.Wf) (x : Exporter Id C P)
    (h : exportScene tm only r = some x) :
    List.Forall₂ (fun (c : C × Cam) (pl : Platform C P) => pl.name = c.1 ∧ pl.width = c.2.width ∧ pl.height = c.2.height ∧
      pl.poses = ((Chosen r.cameras only r.shots).filter (fun e => e.2.camera = c.1)).map (fun e => e.2.pose) ∧
      ∀ X Y Z : ℝ, Z ≠ 0 → pl.K.mulVec ![X, Y, Z] = ![Z * (Pinhole c.2 X Y Z).1, Z * (Pinhole c.2 X Y Z).2, Z])
      (r.cameras.filter (fun e => e.2.perspective)) x.platforms := by
  have I0 := cam_loop (Id := Id) (P := P) r.cameras hc
  have I1 := shot_loop r.cameras hc only r.shots hs _ I0
  have I2 := point_loop tm only r.cameras r.shots _ I1 r.points x h
  rw [I2.platforms, I1.platforms, List.forall₂_map_right_iff]
  refine List.forall₂_same.2 (fun c _ => ⟨rfl, rfl, rfl, rfl, fun X Y Z hZ => ?_⟩)
  show (calibration c.2).mulVec ![X, Y, Z] = _
  unfold calibration Pinhole
  ext i
  fin_cases i
  · simp [Matrix.mulVec, dotProduct, Fin.sum_univ_three]
    field_simp
  · simp [Matrix.mulVec, dotProduct, Fin.sum_univ_three]
    field_simp
  · simp [Matrix.mulVec, dotProduct, Fin.sum_univ_three]

/-- C117: there is one image for each kept shot with a perspective camera, in their order; its platform is its camera and its pose the pose of the shot. A
shot without a mask gets the working directory as a mask. -/
theorem C117_images (tm : TM Id T O) (only : Option (List Id)) (r : Rec Id C T P) (hc : r.cameras.Wf) (hs : r.shots.Wf) (x : Exporter Id C P)
    (h : exportScene tm only r = some x) :
    List.Forall₂ (fun (e : Id × Shot C P) (im : Image Id) => im.name = e.1 ∧ (e.2.hasMask = true → im.mask = .file e.1) ∧ (e.2.hasMask = false → im.mask = .workingDirectory) ∧
      ∃ pl, x.platforms[im.platformID]? = some pl ∧ pl.name = e.2.camera ∧ pl.poses[im.poseID]? = some e.2.pose) (Chosen r.cameras only r.shots) x.images := by
  have I0 := cam_loop (Id := Id) (P := P) r.cameras hc
  have I1 := shot_loop r.cameras hc only r.shots hs _ I0
  have I2 := point_loop tm only r.cameras r.shots _ I1 r.points x h
  rw [I2.images, I2.platforms]
  exact I1.images.imp (fun _ _ hh => ⟨hh.name, hh.masked, hh.unmasked, hh.pose⟩)

/-- C117: there is one vertex for each point that a kept shot sees, in their order; its views are the images of the kept shots of its track, except that a
shot without an image (of another reconstruction, or with another kind of camera) counts as a view of the first image. -/
theorem C117_vertices (tm : TM Id T O) (only : Option (List Id)) (r : Rec Id C T P) (hc : r.cameras.Wf) (hs : r.shots.Wf) (x : Exporter Id C P)
    (h : exportScene tm only r = some x) :
    List.Forall₂ (fun (p : T × (Fin 3 → ℝ)) (v : Vertex) => v.X = p.2 ∧ ∃ (d : Dict Id O) (shots : List Id), tm.getTrackObservations p.1 = .ok d ∧ shots.Sublist d.keys ∧
      (∀ s, s ∈ shots ↔ s ∈ d.keys ∧ Kept only s) ∧
      List.Forall₂ (fun s k => (∃ im, x.images[k]? = some im ∧ im.name = s) ∨ (k = 0 ∧ ∀ im ∈ x.images, im.name ≠ s)) shots v.views)
      (open Classical in r.points.filter (fun p => decide (Seen tm only p.1))) x.vertices := by
  have I0 := cam_loop (Id := Id) (P := P) r.cameras hc
  have I1 := shot_loop r.cameras hc only r.shots hs _ I0
  have I2 := point_loop tm only r.cameras r.shots _ I1 r.points x h
  rw [I2.images]
  exact I2.vertices.imp (fun _ _ hh => ⟨hh.coords, hh.views⟩)

/-- C117: the export fails if and only if a point has no track. -/
theorem C117_fails (tm : TM Id T O) (only : Option (List Id)) (r : Rec Id C T P) :
    exportScene tm only r = none ↔ ∃ p ∈ r.points, ∀ d, tm.getTrackObservations p.1 ≠ .ok d := by
  unfold exportScene
  generalize r.shots.foldl (addShot r.cameras only) (r.cameras.foldl addCamera ⟨[], [], [], [], []⟩) = x0
  generalize r.points = pts
  induction pts generalizing x0 with
  | nil => simp
  | cons p t ih =>
    rw [List.foldlM_cons]
    cases hd : tm.getTrackObservations p.1 with
    | error e =>
      have : addPoint tm only x0 p = none := by simp [addPoint, hd]
      rw [this]
      simp [hd]
    | ok d =>
      obtain ⟨y, hy⟩ : ∃ y, addPoint tm only x0 p = some y := by
        unfold addPoint
        rw [hd]
        simp only
        split
        · exact ⟨_, rfl⟩
        · exact ⟨_, rfl⟩
      rw [hy]
      refine (ih y).trans ?_
      simp [hd]

/-- Two shots, one with a fisheye camera, that see one point: the fisheye shot is not exported and the point is seen twice by the first image. -/
noncomputable def sampleRec : Rec ℕ ℕ ℕ ℕ :=
  ⟨[(0, ⟨true, 1, 640, 480⟩), (1, ⟨false, 1, 640, 480⟩)], [(5, ⟨0, true, 50⟩), (6, ⟨1, false, 60⟩), (7, ⟨0, false, 70⟩)], [(3, 0)]⟩

example : (exportScene (run [.add 5 3 (), .add 6 3 (), .add 7 3 ()]) none sampleRec).map (fun x => x.vertices.map Vertex.views) = some [[0, 0, 1]] := rfl

example : (exportScene (run [.add 5 3 (), .add 6 3 (), .add 7 3 ()]) none sampleRec).map (fun x => x.images.map (fun i => (i.name, i.platformID, i.poseID))) =
    some [(5, 0, 0), (7, 0, 1)] := rfl

/-! ### PMVS -/

theorem shotIndex_get (shots : List Id) (hn : shots.Nodup) (i : Id) (n : ℕ) : (shotIndex shots).get? i = some n ↔ shots[n]? = some i := by
  have hk : (shotIndex shots).keys = shots := by
    unfold shotIndex Dict.keys
    simp
  have hw : (shotIndex shots).Wf := by unfold Dict.Wf; rw [hk]; exact hn
  rw [← Dict.mem_iff_get? hw]
  unfold shotIndex
  exact List.mem_zipIdx_iff_getElem?

/-- Two shots share a track. -/
def Share (ops : List (Op Id T O)) (a b : Id) : Prop :=
  ∃ t, (lastWrite ops.reverse a t).isSome ∧ (lastWrite ops.reverse b t).isSome

theorem connectivity_wf (lt : Id → Id → Bool) (ops : List (Op Id T O)) : ((run ops).getAllPairsConnectivity lt [] []).Wf := by
  rw [connectivity_eq]
  generalize allPairs lt (run ops) _ _ = l
  suffices h : ∀ acc : Dict (Id × Id) Nat, acc.Wf → (l.foldl incr acc).Wf from h [] Dict.wf_nil
  induction l with
  | nil => intro acc h; exact h
  | cons x l ih => intro acc h; exact ih _ (Dict.wf_set h _ _)

theorem mem_of_write (ops : List (Op Id T O)) (s : Id) (t : T) (h : (lastWrite ops.reverse s t).isSome) : t ∈ addedTracks ops ∧ s ∈ addedShots ops := by
  have : ∀ L : List (Op Id T O), (lastWrite L s t).isSome → ∃ o, Op.add s t o ∈ L := by
    intro L
    induction L with
    | nil => intro h; exact absurd h (by simp [lastWrite])
    | cons op L ih =>
      intro h
      cases op with
      | add s' t' o =>
        unfold lastWrite at h
        split at h
        · rename_i hc
          obtain ⟨rfl, rfl⟩ := hc
          exact ⟨o, by simp⟩
        · obtain ⟨o', ho'⟩ := ih h
          exact ⟨o', by simp [ho']⟩
      | remove s' t' =>
        unfold lastWrite at h
        split at h
        · exact absurd h (by simp)
        · obtain ⟨o', ho'⟩ := ih h
          exact ⟨o', by simp [ho']⟩
  obtain ⟨o, ho⟩ := this _ h
  rw [List.mem_reverse] at ho
  exact ⟨List.mem_filterMap.2 ⟨_, ho, rfl⟩, List.mem_filterMap.2 ⟨_, ho, rfl⟩⟩

theorem edge_iff (lt : Id → Id → Bool) (ops : List (Op Id T O)) (a b : Id) (k : ℕ) (h : (((a, b), k) : (Id × Id) × ℕ) ∈ (run ops).getAllPairsConnectivity lt [] []) :
    lt a b = true ∧ 0 < k ∧ Share ops a b := by
  have hg := Dict.get?_of_mem (connectivity_wf lt ops) h
  obtain ⟨h1, h2, h3, h4⟩ := (C05_connectivity lt ops [] [] a b k).1 hg
  refine ⟨h1, h3, ?_⟩
  rw [h4] at h3
  unfold sharedTracks at h3
  obtain ⟨t, _, ht⟩ := List.countP_pos_iff.1 h3
  exact ⟨t, by simpa using ht⟩

theorem edge_of_share (lt : Id → Id → Bool) (ops : List (Op Id T O)) (a b : Id) (hlt : lt a b = true) (h : Share ops a b) :
    ∃ k, 0 < k ∧ (((a, b), k) : (Id × Id) × ℕ) ∈ (run ops).getAllPairsConnectivity lt [] [] := by
  obtain ⟨t, h1, h2⟩ := h
  have hpos : 0 < sharedTracks ops (addedTracks ops).dedup a b := by
    unfold sharedTracks
    rw [List.countP_pos_iff]
    exact ⟨t, List.mem_dedup.2 (mem_of_write ops a t h1).1, by simpa using ⟨h1, h2⟩⟩
  refine ⟨_, hpos, Dict.mem_of_get? ?_⟩
  rw [C05_connectivity]
  exact ⟨hlt, Or.inl ⟨rfl, (mem_of_write ops a t h1).2, (mem_of_write ops b t h2).2⟩, hpos, by simp⟩

/-- A strict total order. -/
structure Total (lt : Id → Id → Bool) : Prop where
  asymm : ∀ a b, lt a b = true → lt b a = false
  total : ∀ a b, a ≠ b → lt a b = true ∨ lt b a = true

theorem Share.symm {ops : List (Op Id T O)} {a b : Id} (h : Share ops a b) : Share ops b a := by
  obtain ⟨t, h1, h2⟩ := h
  exact ⟨t, h2, h1⟩

theorem mem_neighbours (lt : Id → Id → Bool) (hlt : Total lt) (ops : List (Op Id T O)) (s s' : Id) :
    (∃ k, 0 < k ∧ (s', k) ∈ neighbours ((run ops).getAllPairsConnectivity lt [] []) s) ↔ s' ≠ s ∧ Share ops s s' := by
  have hirr : ∀ a, lt a a ≠ true := fun a ha => by have := hlt.asymm a a ha; rw [ha] at this; exact absurd this (by simp)
  unfold neighbours
  constructor
  · rintro ⟨k, hk, hm⟩
    obtain ⟨⟨⟨a, b⟩, n⟩, he, hf⟩ := List.mem_filterMap.1 hm
    obtain ⟨e1, e2, e3⟩ := edge_iff lt ops a b n he
    simp only at hf
    split at hf
    · rename_i ha
      obtain ⟨rfl, rfl⟩ := Prod.mk.inj (Option.some.inj hf)
      subst ha
      exact ⟨fun hh => hirr _ (hh ▸ e1), e3⟩
    · rename_i ha
      split at hf
      · rename_i hb
        obtain ⟨rfl, rfl⟩ := Prod.mk.inj (Option.some.inj hf)
        subst hb
        exact ⟨ha, e3.symm⟩
      · exact absurd hf (by simp)
  · rintro ⟨hne, hsh⟩
    rcases hlt.total s s' (Ne.symm hne) with h | h
    · obtain ⟨k, hk, hm⟩ := edge_of_share lt ops s s' h hsh
      exact ⟨k, hk, List.mem_filterMap.2 ⟨_, hm, by simp⟩⟩
    · obtain ⟨k, hk, hm⟩ := edge_of_share lt ops s' s h hsh.symm
      exact ⟨k, hk, List.mem_filterMap.2 ⟨_, hm, by simp [hne]⟩⟩

theorem neighbours_nodup (lt : Id → Id → Bool) (hlt : Total lt) (ops : List (Op Id T O)) (s : Id) :
    ((neighbours ((run ops).getAllPairsConnectivity lt [] []) s).map Prod.fst).Nodup := by
  have hwf := connectivity_wf lt ops
  have hE : ∀ a b k, (((a, b), k) : (Id × Id) × ℕ) ∈ (run ops).getAllPairsConnectivity lt [] [] → lt a b = true := fun a b k h => (edge_iff lt ops a b k h).1
  generalize (run ops).getAllPairsConnectivity lt [] [] = E at hwf hE
  induction E with
  | nil => exact List.nodup_nil
  | cons e t ih =>
    obtain ⟨⟨a, b⟩, k⟩ := e
    have hwt : Dict.Wf t := (List.nodup_cons.1 hwf).2
    have hnot : (a, b) ∉ Dict.keys t := (List.nodup_cons.1 hwf).1
    have hEt : ∀ a b k, (((a, b), k) : (Id × Id) × ℕ) ∈ t → lt a b = true := fun a b k h => hE a b k (List.mem_cons_of_mem _ h)
    have hab := hE a b k (by simp)
    have ih' := ih hwt hEt
    have hmem : ∀ y, y ∈ (neighbours t s).map Prod.fst → (s, y) ∈ Dict.keys t ∨ (y, s) ∈ Dict.keys t := by
      intro y hy
      obtain ⟨⟨y', n⟩, hy1, rfl⟩ := List.mem_map.1 hy
      obtain ⟨⟨⟨a', b'⟩, n'⟩, he, hf⟩ := List.mem_filterMap.1 hy1
      simp only at hf
      split at hf
      · rename_i ha
        obtain ⟨rfl, rfl⟩ := Prod.mk.inj (Option.some.inj hf)
        subst ha
        exact Or.inl (List.mem_map.2 ⟨_, he, rfl⟩)
      · split at hf
        · rename_i hb
          obtain ⟨rfl, rfl⟩ := Prod.mk.inj (Option.some.inj hf)
          subst hb
          exact Or.inr (List.mem_map.2 ⟨_, he, rfl⟩)
        · exact absurd hf (by simp)
    have hlt' : ∀ x y, (x, y) ∈ Dict.keys t → lt x y = true := by
      intro x y hxy
      obtain ⟨⟨⟨x', y'⟩, n⟩, h1, h2⟩ := List.mem_map.1 hxy
      obtain ⟨rfl, rfl⟩ := Prod.mk.inj h2
      exact hEt _ _ _ h1
    by_cases ha : a = s
    · subst ha
      have : neighbours (((a, b), k) :: t) a = (b, k) :: neighbours t a := by simp [neighbours]
      rw [this, List.map_cons, List.nodup_cons]
      refine ⟨fun hm => ?_, ih'⟩
      rcases hmem b hm with h | h
      · exact hnot h
      · have := hlt.asymm a b hab
        rw [hlt' b a h] at this
        exact absurd this (by simp)
    · by_cases hb : b = s
      · subst hb
        have : neighbours (((a, b), k) :: t) b = (a, k) :: neighbours t b := by simp [neighbours, ha]
        rw [this, List.map_cons, List.nodup_cons]
        refine ⟨fun hm => ?_, ih'⟩
        rcases hmem a hm with h | h
        · have := hlt.asymm a b hab
          rw [hlt' b a h] at this
          exact absurd this (by simp)
        · exact hnot h
      · have : neighbours (((a, b), k) :: t) s = neighbours t s := by simp [neighbours, ha, hb]
        rw [this]
        exact ih'

theorem mapM_some {α β : Type} (f : α → Option β) (L : List α) : ∀ l, L.mapM f = some l ↔ List.Forall₂ (fun x y => f x = some y) L l := by
  induction L with
  | nil =>
    intro l
    rw [List.mapM_nil, List.forall₂_nil_left_iff]
    exact ⟨fun h => (Option.some.inj h).symm, fun h => by rw [h]; rfl⟩
  | cons x t ih =>
    intro l
    rw [List.mapM_cons]
    cases hx : f x with
    | none =>
      refine ⟨fun h => absurd h (by simp), fun h => ?_⟩
      cases h with
      | cons h1 _ => rw [hx] at h1; exact absurd h1 (by simp)
    | some y =>
      cases ht : t.mapM f with
      | none =>
        refine ⟨fun h => absurd h (by simp), fun h => ?_⟩
        cases h with
        | cons h1 h2 => rw [(ih _).2 h2] at ht; exact absurd ht (by simp)
      | some l' =>
        constructor
        · intro h
          have : y :: l' = l := by simpa using h
          subst this
          exact List.Forall₂.cons hx ((ih l').1 ht)
        · intro h
          cases h with
          | cons h1 h2 =>
            rw [hx] at h1
            obtain rfl := Option.some.inj h1
            rw [(ih _).2 h2] at ht
            obtain rfl := Option.some.inj ht
            rfl

theorem mapM_none {α β : Type} (f : α → Option β) (L : List α) : L.mapM f = none ↔ ∃ x ∈ L, f x = none := by
  induction L with
  | nil => simp
  | cons x t ih =>
    rw [List.mapM_cons]
    cases hx : f x with
    | none => simp [hx]
    | some y =>
      cases ht : t.mapM f with
      | none =>
        obtain ⟨z, hz, hz1⟩ := ih.1 ht
        simp only [List.mem_cons, exists_eq_or_imp, hx]
        simp
        exact ⟨z, hz, hz1⟩
      | some l =>
        have : ¬ ∃ x ∈ t, f x = none := fun h => by rw [ih.2 h] at ht; exact absurd ht (by simp)
        simp only [List.mem_cons, exists_eq_or_imp, hx]
        simpa using this

/-- C117: the line of each shot lists, once each, the indices of the other shots of the reconstruction that share a track with it. -/
theorem C117_vis (lt : Id → Id → Bool) (hlt : Total lt) (ops : List (Op Id T O)) (shots : List Id) (hn : shots.Nodup) (hne : addedShots ops ≠ []) (n : ℕ) (lines : List VisLine) (use : Bool)
    (h : pmvs (some (Tracking.asWeightedGraph lt (run ops))) shots = some (n, lines, use)) :
    n = shots.length ∧ use = true ∧ lines.length = shots.length ∧ ∀ (i : ℕ) (s : Id), shots[i]? = some s →
      ∃ l, lines[i]? = some (i, l.length, l) ∧ l.Nodup ∧ ∀ j, j ∈ l ↔ ∃ s', shots[j]? = some s' ∧ s' ≠ s ∧ Share ops s s' := by
  unfold pmvs at h
  obtain ⟨ls, h1, h2⟩ := Option.map_eq_some_iff.1 h
  obtain ⟨rfl, h2'⟩ := Prod.mk.inj h2
  obtain ⟨rfl, rfl⟩ := Prod.mk.inj h2'
  unfold visLines at h1
  have hnode : (Tracking.asWeightedGraph lt (run ops)).1.isEmpty = false := by
    obtain ⟨s, hs⟩ := List.exists_mem_of_ne_nil _ hne
    have := (mem_shotIds ops s).2 hs
    cases hl : (Tracking.asWeightedGraph lt (run ops)).1 with
    | nil =>
      have hl' : (run ops).getShotIds = [] := hl
      rw [hl'] at this
      exact absurd this (by simp)
    | cons _ _ => rfl
  simp only [hnode] at h1
  have hF := (mapM_some _ _ _).1 h1
  refine ⟨by simp [shotIndex], rfl, ?_, ?_⟩
  · rw [← hF.length_eq]
    simp [shotIndex]
  · intro i s hi
    have hidx : (shotIndex shots)[i]? = some (s, i) := by
      unfold shotIndex
      rw [List.getElem?_zipIdx, hi]
      simp
    obtain ⟨hlt1, hget⟩ := List.getElem?_eq_some_iff.1 hidx
    have hlt2 : i < ls.length := by rw [← hF.length_eq]; exact hlt1
    have hrow := List.Forall₂.get hF hlt1 hlt2
    rw [List.get_eq_getElem, List.get_eq_getElem, hget] at hrow
    obtain ⟨l, hl, hl2⟩ := Option.map_eq_some_iff.1 hrow
    refine ⟨l, by rw [List.getElem?_eq_getElem hlt2, ← hl2], ?_, ?_⟩
    · unfold adjacent at hl
      split at hl
      · obtain rfl := Option.some.inj hl
        have hnd := neighbours_nodup lt hlt ops s
        show (List.filterMap _ (neighbours ((run ops).getAllPairsConnectivity lt [] []) s)).Nodup
        generalize neighbours ((run ops).getAllPairsConnectivity lt [] []) s = N at hnd
        induction N with
        | nil => exact List.nodup_nil
        | cons e t ih =>
          rw [List.map_cons, List.nodup_cons] at hnd
          rw [List.filterMap_cons]
          split
          · exact ih hnd.2
          · rename_i j hj
            rw [List.nodup_cons]
            refine ⟨fun hm => ?_, ih hnd.2⟩
            obtain ⟨e', he', hj'⟩ := List.mem_filterMap.1 hm
            split at hj
            · split at hj'
              · rw [shotIndex_get shots hn] at hj hj'
                rw [hj] at hj'
                have := Option.some.inj hj'
                exact hnd.1 (List.mem_map.2 ⟨e', he', this.symm⟩)
              · exact absurd hj' (by simp)
            · exact absurd hj (by simp)
      · exact absurd hl (by simp)
    · intro j
      unfold adjacent at hl
      split at hl
      · obtain rfl := Option.some.inj hl
        show j ∈ List.filterMap _ (neighbours ((run ops).getAllPairsConnectivity lt [] []) s) ↔ _
        rw [List.mem_filterMap]
        constructor
        · rintro ⟨⟨s', k⟩, hm, hj⟩
          split at hj
          · rename_i hk
            rw [shotIndex_get shots hn] at hj
            exact ⟨s', hj, (mem_neighbours lt hlt ops s s').1 ⟨k, hk, hm⟩⟩
          · exact absurd hj (by simp)
        · rintro ⟨s', h1, h2⟩
          obtain ⟨k, hk, hm⟩ := (mem_neighbours lt hlt ops s s').2 h2
          refine ⟨(s', k), hm, ?_⟩
          rw [if_pos hk]
          exact (shotIndex_get shots hn s' j).2 h1
      · exact absurd hl (by simp)

/-- C117: the export to PMVS fails if and only if there are tracks and a shot of the reconstruction was never in them. -/
theorem C117_vis_fails (lt : Id → Id → Bool) (ops : List (Op Id T O)) (shots : List Id) :
    pmvs (some (Tracking.asWeightedGraph lt (run ops))) shots = none ↔ addedShots ops ≠ [] ∧ ∃ s ∈ shots, s ∉ addedShots ops := by
  have hmem : ∀ s, s ∈ (Tracking.asWeightedGraph lt (run ops)).1 ↔ s ∈ addedShots ops := fun s => mem_shotIds ops s
  unfold pmvs visLines
  simp only [Option.map_eq_none_iff]
  have hemp : (Tracking.asWeightedGraph lt (run ops)).1.isEmpty = true ↔ addedShots ops = [] := by
    rw [List.isEmpty_iff]
    constructor
    · intro h
      apply List.eq_nil_iff_forall_not_mem.2
      intro s hs
      have := (hmem s).2 hs
      rw [h] at this
      exact absurd this (by simp)
    · intro h
      apply List.eq_nil_iff_forall_not_mem.2
      intro s hs
      have := (hmem s).1 hs
      rw [h] at this
      exact absurd this (by simp)
  by_cases he : addedShots ops = []
  · rw [if_pos (hemp.2 he)]
    simp [he]
  · rw [if_neg (fun hh => he (hemp.1 hh)), mapM_none]
    constructor
    · rintro ⟨⟨s, i⟩, h1, h2⟩
      refine ⟨he, s, ?_, ?_⟩
      · have : s ∈ (shotIndex shots).map Prod.fst := List.mem_map.2 ⟨_, h1, rfl⟩
        simpa [shotIndex] using this
      · rw [Option.map_eq_none_iff] at h2
        unfold adjacent at h2
        split at h2
        · exact absurd h2 (by simp)
        · rename_i hh
          exact fun hs => hh ((hmem s).2 hs)
    · rintro ⟨_, s, hs, hns⟩
      obtain ⟨i, hi⟩ := List.mem_iff_getElem?.1 hs
      refine ⟨(s, i), List.mem_zipIdx_iff_getElem?.2 hi, ?_⟩
      rw [Option.map_eq_none_iff]
      unfold adjacent
      rw [if_neg (fun hh => hns ((hmem s).1 hh))]

/-- C117: without a tracks file there are no lines and they are not used; with an empty one there are no lines either, but PMVS is told to use them. -/
theorem C117_vis_empty (lt : Id → Id → Bool) (shots : List Id) :
    pmvs none shots = some (shots.length, [], false) ∧
    pmvs (some (Tracking.asWeightedGraph lt (run ([] : List (Op Id T O))))) shots = some (shots.length, [], true) := by
  constructor
  · simp [pmvs, visLines, shotIndex]
  · simp [pmvs, visLines, shotIndex, Tracking.asWeightedGraph, run, empty, getShotIds]

/-- Three shots, two of them in the reconstruction with a common track. -/
example : pmvs (some (Tracking.asWeightedGraph (fun a b => decide (a < b)) (run [.add 1 0 (), .add 2 0 (), .add 3 0 (), .add 3 1 ()]))) [3, 1] =
    some (2, [(0, 1, [1]), (1, 1, [0])], true) := by decide

end Verif.ExportScene
