import Verif.Model.Reference
import Mathlib.Algebra.BigOperators.Group.List.Lemmas
import Mathlib.Algebra.Order.BigOperators.Group.List
import Mathlib.Algebra.Order.Ring.Rat
import Mathlib.Algebra.Order.Field.Rat
import Mathlib.Tactic.Linarith
import Mathlib.Tactic.Ring
import Mathlib.Tactic.Positivity
import Mathlib.Tactic.NormNum

/-!
# C59: the reference of a dataset
-/
set_option linter.unusedSectionVars false
set_option linter.unusedSimpArgs false
namespace Verif.Reference
variable {F : Type} [Field F] [LinearOrder F] [IsStrictOrderedRing F]

/-! ## Specification -/

/-- A measured position with its weight: the inverse of the dilution of precision, which is 15 when
unknown and never taken below 0.01. -/
structure Sample (F : Type) where
  lat : F
  lon : F
  w : F

/-- The measurement of an image, if it has both coordinates. -/
def sample : Option (Gps F) → Option (Sample F)
  | some ⟨some la, some lo, d⟩ => some ⟨la, lo, 1 / max (1 / 100) (d.getD 15)⟩
  | _ => none

/-- The measurement of a ground control point. -/
def gcpSample : Option (F × F) → Option (Sample F)
  | some p => some ⟨p.1, p.2, 1⟩
  | none => none

/-- The measurements in use: those of the images, or without any those of the ground control
points. -/
def samples (exifs : List (Option (Gps F))) (gcps : List (Option (F × F))) : List (Sample F) :=
  if exifs.filterMap sample = [] then gcps.filterMap gcpSample else exifs.filterMap sample

/-! ## Sums -/

/-- Sums over measurements. -/
def total (l : List (Sample F)) : Acc F :=
  ⟨(l.map (fun s => s.w * s.lat)).sum, (l.map (fun s => s.w * s.lon)).sum, (l.map (·.w)).sum,
    (l.map (·.w)).sum⟩

def Acc.plus (a b : Acc F) : Acc F := ⟨a.lat + b.lat, a.lon + b.lon, a.wlat + b.wlat, a.wlon + b.wlon⟩

theorem weight_eq (g : Gps F) : weight g = 1 / max (1 / 100) (g.dop.getD 15) := by
  unfold weight
  simp only
  congr 1
  split
  · rename_i h; rw [max_eq_right h.le]
  · rename_i h; rw [max_eq_left (not_lt.1 h)]

theorem fold_images (exifs : List (Option (Gps F))) (a : Acc F) :
    exifs.foldl addImage a = a.plus (total (exifs.filterMap sample)) := by
  induction exifs generalizing a with
  | nil => simp [total, Acc.plus]
  | cons e t ih =>
    rw [List.foldl_cons, ih]
    rcases e with _ | ⟨_ | la, _ | lo, d⟩
    · rfl
    · rfl
    · rfl
    · rfl
    · have h1 : sample (some ⟨some la, some lo, d⟩) =
          some ⟨la, lo, weight ⟨some la, some lo, d⟩⟩ := by rw [weight_eq]; rfl
      rw [List.filterMap_cons, h1]
      simp only [addImage, Acc.plus, total, List.map_cons, List.sum_cons, Acc.mk.injEq]
      refine ⟨?_, ?_, ?_, ?_⟩ <;> ring

theorem fold_gcps (gcps : List (Option (F × F))) (a : Acc F) :
    gcps.foldl addGcp a = a.plus (total (gcps.filterMap gcpSample)) := by
  induction gcps generalizing a with
  | nil => simp [total, Acc.plus]
  | cons e t ih =>
    rw [List.foldl_cons, ih]
    rcases e with _ | p
    · rfl
    · rw [List.filterMap_cons]
      simp only [gcpSample, addGcp, Acc.plus, total, List.map_cons, List.sum_cons, Acc.mk.injEq]
      refine ⟨?_, ?_, ?_, ?_⟩ <;> ring

theorem sample_pos {l : List (Option (Gps F))} : ∀ s ∈ l.filterMap sample, 0 < s.w := by
  intro s hs
  obtain ⟨e, _, he⟩ := List.mem_filterMap.1 hs
  rcases e with _ | ⟨_ | la, _ | lo, d⟩ <;> simp [sample] at he
  rw [← he]
  have : (0 : F) < max (1 / 100) (d.getD 15) := lt_of_lt_of_le (by positivity) (le_max_left _ _)
  simpa using this

theorem gcp_pos {l : List (Option (F × F))} : ∀ s ∈ l.filterMap gcpSample, 0 < s.w := by
  intro s hs
  obtain ⟨e, _, he⟩ := List.mem_filterMap.1 hs
  rcases e with _ | p <;> simp [gcpSample] at he
  rw [← he]
  exact one_pos

theorem sum_pos {l : List (Sample F)} (h : ∀ s ∈ l, 0 < s.w) (hne : l ≠ []) :
    0 < (l.map (·.w)).sum := by
  induction l with
  | nil => exact absurd rfl hne
  | cons a t ih =>
    rw [List.map_cons, List.sum_cons]
    have ha := h a (by simp)
    by_cases ht : t = []
    · subst ht; simpa using ha
    · have := ih (fun s hs => h s (by simp [hs])) ht
      linarith

theorem invent_eq (exifs : List (Option (Gps F))) (gcps : List (Option (F × F))) :
    (samples exifs gcps ≠ [] → 0 < (total (samples exifs gcps)).wlat ∧ invent exifs gcps =
      ⟨(total (samples exifs gcps)).lat / (total (samples exifs gcps)).wlat,
        (total (samples exifs gcps)).lon / (total (samples exifs gcps)).wlat, 0⟩) ∧
    (samples exifs gcps = [] → invent exifs gcps = ⟨0, 0, 0⟩) := by
  have z : ∀ b : Acc F, Acc.plus ⟨0, 0, 0, 0⟩ b = b := by intro b; cases b; simp [Acc.plus]
  have key : ∀ b : Acc F, b.wlat = b.wlon → 0 < b.wlat →
      (⟨if b.wlat ≠ 0 then b.lat / b.wlat else b.lat,
        if b.wlon ≠ 0 then b.lon / b.wlon else b.lon, 0⟩ : Ref F) =
      ⟨b.lat / b.wlat, b.lon / b.wlat, 0⟩ := by
    intro b h1 h2
    rw [if_pos h2.ne', if_pos (h1 ▸ h2.ne'), h1]
  have hacc : (if (exifs.foldl addImage ⟨0, 0, 0, 0⟩).wlat = 0 ∧
      (exifs.foldl addImage ⟨0, 0, 0, 0⟩).wlon = 0 then
      gcps.foldl addGcp (exifs.foldl addImage ⟨0, 0, 0, 0⟩) else exifs.foldl addImage ⟨0, 0, 0, 0⟩) =
      total (samples exifs gcps) := by
    simp only [fold_images, fold_gcps, z]
    unfold samples
    by_cases h : exifs.filterMap sample = []
    · have h0 : total (exifs.filterMap sample) = (⟨0, 0, 0, 0⟩ : Acc F) := by rw [h]; simp [total]
      rw [h0, if_pos h, z, if_pos ⟨rfl, rfl⟩]
    · have hp := sum_pos sample_pos h
      have hn : ¬ ((total (exifs.filterMap sample)).wlat = 0 ∧
          (total (exifs.filterMap sample)).wlon = 0) := fun hc => hp.ne' hc.1
      rw [if_neg h, if_neg hn]
  have hw : ∀ s ∈ samples exifs gcps, 0 < s.w := by
    unfold samples
    split
    · exact gcp_pos
    · exact sample_pos
  unfold invent
  simp only
  rw [hacc]
  constructor
  · intro hne
    have hp := sum_pos hw hne
    exact ⟨hp, key _ rfl hp⟩
  · intro he
    rw [he]
    simp [total]

theorem wsum_bounds (l : List (Sample F)) (f : Sample F → F) (h : ∀ s ∈ l, 0 < s.w) (a b : F)
    (hab : ∀ s ∈ l, a ≤ f s ∧ f s ≤ b) :
    a * (l.map (·.w)).sum ≤ (l.map (fun s => s.w * f s)).sum ∧
      (l.map (fun s => s.w * f s)).sum ≤ b * (l.map (·.w)).sum := by
  induction l with
  | nil => simp
  | cons x t ih =>
    simp only [List.map_cons, List.sum_cons]
    obtain ⟨i1, i2⟩ := ih (fun s hs => h s (by simp [hs])) (fun s hs => hab s (by simp [hs]))
    have hx := h x (by simp)
    obtain ⟨h1, h2⟩ := hab x (by simp)
    constructor <;> nlinarith

/-- **C59, the value.** Over all images and ground control points: the reference is the mean of the
measured positions weighted by the inverse of their dilution of precision, at altitude zero; it lies
in the bounding box of the positions; and it does not depend on the order of the images. -/
theorem C59_weighted_mean (exifs : List (Option (Gps F))) (gcps : List (Option (F × F)))
    (hne : samples exifs gcps ≠ []) :
    (invent exifs gcps).lat * ((samples exifs gcps).map (·.w)).sum =
      ((samples exifs gcps).map (fun s => s.w * s.lat)).sum ∧
    (invent exifs gcps).lon * ((samples exifs gcps).map (·.w)).sum =
      ((samples exifs gcps).map (fun s => s.w * s.lon)).sum ∧
    (invent exifs gcps).alt = 0 ∧ 0 < ((samples exifs gcps).map (·.w)).sum ∧
    (∀ a b, (∀ s ∈ samples exifs gcps, a ≤ s.lat ∧ s.lat ≤ b) →
      a ≤ (invent exifs gcps).lat ∧ (invent exifs gcps).lat ≤ b) ∧
    (∀ a b, (∀ s ∈ samples exifs gcps, a ≤ s.lon ∧ s.lon ≤ b) →
      a ≤ (invent exifs gcps).lon ∧ (invent exifs gcps).lon ≤ b) := by
  obtain ⟨hp, he⟩ := (invent_eq exifs gcps).1 hne
  have hw : ∀ s ∈ samples exifs gcps, 0 < s.w := by
    unfold samples
    split
    · exact gcp_pos
    · exact sample_pos
  rw [he]
  have hp' : 0 < ((samples exifs gcps).map (·.w)).sum := hp
  refine ⟨div_mul_cancel₀ _ hp'.ne', div_mul_cancel₀ _ hp'.ne', rfl, hp', ?_, ?_⟩
  · intro a b hab
    obtain ⟨h1, h2⟩ := wsum_bounds _ (·.lat) hw a b hab
    exact ⟨(le_div_iff₀ hp').2 h1, (div_le_iff₀ hp').2 h2⟩
  · intro a b hab
    obtain ⟨h1, h2⟩ := wsum_bounds _ (·.lon) hw a b hab
    exact ⟨(le_div_iff₀ hp').2 h1, (div_le_iff₀ hp').2 h2⟩

/-- Without any measured position the reference is latitude 0, longitude 0. -/
theorem C59_no_position (exifs : List (Option (Gps F))) (gcps : List (Option (F × F)))
    (h : ∀ e ∈ exifs, sample e = none) (hg : ∀ g ∈ gcps, g = none) :
    invent exifs gcps = ⟨0, 0, 0⟩ := by
  apply (invent_eq exifs gcps).2
  unfold samples
  have h1 : exifs.filterMap sample = [] := List.filterMap_eq_nil_iff.2 h
  have h2 : gcps.filterMap gcpSample = [] := List.filterMap_eq_nil_iff.2 (by
    intro g hgm; rw [hg g hgm]; rfl)
  rw [if_pos h1, h2]

theorem samples_perm {exifs exifs' : List (Option (Gps F))} {gcps gcps' : List (Option (F × F))}
    (h : exifs.Perm exifs') (hg : gcps.Perm gcps') :
    (samples exifs gcps).Perm (samples exifs' gcps') := by
  have p1 := h.filterMap sample
  have p2 := hg.filterMap gcpSample
  unfold samples
  by_cases h0 : exifs.filterMap sample = []
  · have h0' : exifs'.filterMap sample = [] := by rw [h0] at p1; exact p1.symm.eq_nil
    rw [if_pos h0, if_pos h0']; exact p2
  · have h0' : ¬ exifs'.filterMap sample = [] := by
      intro hc; rw [hc] at p1; exact h0 p1.eq_nil
    rw [if_neg h0, if_neg h0']; exact p1

/-- Neither the order of the images nor that of the ground control points matters. -/
theorem C59_order (exifs exifs' : List (Option (Gps F))) (gcps gcps' : List (Option (F × F)))
    (h : exifs.Perm exifs') (hg : gcps.Perm gcps') : invent exifs gcps = invent exifs' gcps' := by
  have hp := samples_perm h hg
  have ht : total (samples exifs gcps) = total (samples exifs' gcps') := by
    unfold total
    rw [(hp.map _).sum_eq, (hp.map (fun s => s.w * s.lon)).sum_eq, (hp.map (·.w)).sum_eq]
  by_cases h0 : samples exifs gcps = []
  · have h0' : samples exifs' gcps' = [] := by rw [h0] at hp; exact hp.symm.eq_nil
    rw [(invent_eq exifs gcps).2 h0, (invent_eq exifs' gcps').2 h0']
  · have h0' : samples exifs' gcps' ≠ [] := by
      intro hc; rw [hc] at hp; exact h0 hp.eq_nil
    rw [((invent_eq exifs gcps).1 h0).2, ((invent_eq exifs' gcps').1 h0').2, ht]

/-- The bounding box is that of the longitudes as numbers: for two images on either side of the
180th meridian, `2 ε` degrees apart, the reference has longitude 0, on the other side of the Earth. -/
theorem C59_antimeridian (e lat : F) :
    (invent [some ⟨some lat, some (180 - e), none⟩, some ⟨some lat, some (-180 + e), none⟩] []).lon
      = 0 := by
  obtain ⟨-, h, -, hp, -, -⟩ := C59_weighted_mean
    [some ⟨some lat, some (180 - e), none⟩, some ⟨some lat, some (-180 + e), none⟩] [] (by
      simp [samples, sample])
  have h2 : ((samples [some ⟨some lat, some (180 - e), none⟩,
      some ⟨some lat, some (-180 + e), none⟩] []).map (fun s => s.w * s.lon)).sum = 0 := by
    simp [samples, sample]
    ring
  rw [h2] at h
  rcases mul_eq_zero.1 h with h | h
  · exact h
  · exact absurd h hp.ne'

/-! ## Histories -/

/-- **C59, computed once.** Once a reference is saved, it is the one loaded after any sequence of
stages, crashes and changes of images, EXIF data and ground control points. -/
theorem C59_stays (d : Data F) (r : Ref F) (h : d.loadReference = some r) (ops : List (Op F)) :
    (d.run ops).loadReference = some r := by
  have hf : ∀ d : Data F, d.loadReference = some r → d.file = .saved r := by
    intro d hd
    unfold Data.loadReference at hd
    split at hd
    · rename_i r' e; cases hd; exact e
    · cases hd
  have key : ∀ (d : Data F) (o : Op F), d.file = .saved r → (d.step o).file = .saved r := by
    intro d o hd
    have hex : d.referenceExists = true := by unfold Data.referenceExists; rw [hd]
    cases o with
    | init im => simp only [Data.step, Data.initReference, hex, if_true]; exact hd
    | crash => simp only [Data.step, Data.initReferenceCrash, hex, if_true]; exact hd
    | setExif _ => exact hd
    | setImages _ => exact hd
    | setGcps _ => exact hd
  have h1 : ∀ (ops : List (Op F)) (d : Data F), d.file = .saved r → (d.run ops).file = .saved r := by
    intro ops
    induction ops with
    | nil => intro d hd; exact hd
    | cons o t ih => intro d hd; exact ih _ (key d o hd)
  unfold Data.loadReference
  rw [h1 ops d (hf d h)]

/-- Steps that neither initialise the reference nor die doing so. -/
def Op.Quiet : Op F → Prop
  | .init _ => False
  | .crash => False
  | _ => True

/-- **C59, which one.** Starting without a reference, after any steps that do not touch it, the first
stage that initialises it, for the images it is given or else for all images, saves the value computed
from the EXIF data and ground control points of that moment, and this is what every later stage
loads, whatever happens in between. -/
theorem C59_first (d : Data F) (h : d.file = .absent) (before after : List (Op F))
    (hb : ∀ o ∈ before, o.Quiet) (images : Option (List String)) :
    (d.run before).file = .absent ∧
    (d.run (before ++ .init images :: after)).loadReference =
      some (invent ((match images with
        | some l => l
        | none => (d.run before).images).map (d.run before).exif) (d.run before).gcps) := by
  have h1 : (d.run before).file = .absent := by
    induction before generalizing d with
    | nil => exact h
    | cons o t ih =>
      have ho := hb o (by simp)
      apply ih
      · cases o with
        | init _ => exact absurd ho id
        | crash => exact absurd ho id
        | setExif _ => exact h
        | setImages _ => exact h
        | setGcps _ => exact h
      · intro o' ho'; exact hb o' (by simp [ho'])
  refine ⟨h1, ?_⟩
  have : d.run (before ++ .init images :: after) = ((d.run before).step (.init images)).run after := by
    unfold Data.run; rw [List.foldl_append]; rfl
  rw [this]
  apply C59_stays
  have hex : (d.run before).referenceExists = false := by unfold Data.referenceExists; rw [h1]
  simp only [Data.step, Data.initReference, hex]
  cases images <;> rfl

/-- A process that dies while writing the reference for the first time leaves a dataset whose
reference no later stage repairs: loading it fails for ever. -/
theorem C59_crash (d : Data F) (h : d.file = .absent) (ops : List (Op F)) :
    (d.run (.crash :: ops)).loadReference = none := by
  have h0 : (d.step .crash).file = .truncated := by
    simp [Data.step, Data.initReferenceCrash, Data.referenceExists, h]
  have key : ∀ (ops : List (Op F)) (d : Data F), d.file = .truncated →
      (d.run ops).file = .truncated := by
    intro ops
    induction ops with
    | nil => intro d hd; exact hd
    | cons o t ih =>
      intro d hd
      apply ih
      have hex : d.referenceExists = true := by unfold Data.referenceExists; rw [hd]
      cases o with
      | init im => simp only [Data.step, Data.initReference, hex, if_true]; exact hd
      | crash => simp only [Data.step, Data.initReferenceCrash, hex, if_true]; exact hd
      | setExif _ => exact hd
      | setImages _ => exact hd
      | setGcps _ => exact hd
  unfold Data.loadReference
  have : d.run (.crash :: ops) = (d.step .crash).run ops := rfl
  rw [this, key ops _ h0]

/-! ## Examples -/

/-- Two images, one with a precise position, and one without. -/
def exExifs : List (Option (Gps ℚ)) :=
  [some ⟨some 10, some 20, some 1⟩, none, some ⟨some 14, some 28, some (1 / 1000)⟩,
    some ⟨none, some 3, none⟩]

example : samples exExifs [some (1, 2)] ≠ [] ∧
    invent exExifs [some (1, 2)] = ⟨(1 * 10 + 100 * 14) / 101, (1 * 20 + 100 * 28) / 101, 0⟩ := by
  constructor
  · decide +kernel
  · decide +kernel

example : invent [none, some ⟨some 3, none, none⟩] [none, some (2, 4), some (4, 8)] =
    (⟨3, 6, 0⟩ : Ref ℚ) := by decide +kernel

example : ((⟨["a"], fun _ => some ⟨some 1, some 2, none⟩, [], .absent⟩ : Data ℚ).run
    [.setImages ["a", "b"], .init none, .setExif (fun _ => none), .init (some ["b"])]).loadReference =
    some ⟨1, 2, 0⟩ := by decide +kernel

end Verif.Reference
