import Verif.Model.ConfigDefaults
import Mathlib.Data.List.Nodup

/-!
# C60: the configuration
-/
set_option linter.unusedSimpArgs false
namespace Verif.Config

theorem get?_foldl_set (l : List (String × Val)) (hl : (l.map Prod.fst).Nodup) (m : Dict String Val)
    (k : String) : (l.foldl (fun c q => Dict.set c q.1 q.2) m).get? k =
      match Dict.get? l k with
      | some v => some v
      | none => m.get? k := by
  induction l generalizing m with
  | nil => rfl
  | cons q l ih =>
    obtain ⟨a, b⟩ := q
    have hnd := List.nodup_cons.1 hl
    rw [List.foldl_cons, ih hnd.2, Dict.get?_set]
    by_cases ha : a = k
    · subst ha
      have : Dict.get? l a = none := by rw [Dict.get?_eq_none_iff]; exact hnd.1
      simp [Dict.get?, this]
    · simp [Dict.get?, ha]

/-- C60. A value of the file replaces the default or is added, every other default stays. -/
theorem C60_override (m : List (String × Val)) (hm : (m.map Prod.fst).Nodup) (k : String) :
    ∃ c, datasetConfig defaults (some (.map m)) = some c ∧
      (∀ v, (k, v) ∈ m → c.get? k = some v) ∧
      ((∀ v, (k, v) ∉ m) → c.get? k = defaults.get? k) := by
  unfold datasetConfig loadConfig
  have hw : Dict.Wf m := hm
  cases m with
  | nil => exact ⟨defaults, rfl, by simp, fun _ => rfl⟩
  | cons q l =>
    refine ⟨_, rfl, ?_, ?_⟩
    · intro v hv
      rw [get?_foldl_set _ hm, Dict.get?_of_mem hw hv]
    · intro hv
      rw [get?_foldl_set _ hm]
      cases hg : Dict.get? (q :: l) k with
      | none => rfl
      | some v => exact absurd (Dict.mem_of_get? hg) (hv v)

/-- C60. Without a file, and with an empty one, the configuration is the default one. -/
theorem C60_empty :
    datasetConfig defaults none = some defaults ∧ datasetConfig defaults (some .null) = some defaults ∧
    datasetConfig defaults (some (.map [])) = some defaults := ⟨rfl, rfl, rfl⟩

/-- C60. A document that is not a mapping is an error, unless it is false in Python, when it is ignored. -/
theorem C60_not_mapping (doc : Val) (h : ∀ m, doc ≠ .map m) :
    datasetConfig defaults (some doc) = if truthy doc then none else some defaults := by
  unfold datasetConfig loadConfig
  cases doc with
  | map m => exact absurd rfl (h m)
  | _ => simp

/-- C60. The defaults have no name twice, so every name has one default. -/
theorem C60_defaults_wf : defaults.Wf ∧ defaults.length = 152 := by
  refine ⟨?_, by decide +kernel⟩
  show (defaults.map Prod.fst).Nodup
  decide +kernel

/-- C60. The known names are always present, whatever the file says. -/
theorem C60_known (doc : Option Val) (c : Dict String Val) (h : datasetConfig defaults doc = some c)
    (k : String) (hk : k ∈ defaults.keys) : k ∈ c.keys := by
  cases doc with
  | none => cases h; exact hk
  | some doc =>
    unfold datasetConfig loadConfig at h
    simp only at h
    split at h
    · rename_i ht
      cases doc with
      | map m =>
        have : m.foldl (fun c q => Dict.set c q.1 q.2) defaults = c := Option.some.inj h
        rw [← this]
        clear h this ht
        generalize defaults = d at hk
        induction m generalizing d with
        | nil => exact hk
        | cons q m ih =>
          rw [List.foldl_cons]
          apply ih
          exact (Dict.mem_keys_set _ _ _ _).2 (Or.inr hk)
      | _ => cases h
    · cases h; exact hk

/-- C60. The labels to ignore come from the file; those of undistorted images fall back to those of the
original images. -/
theorem C60_ignore (m : List (String × Val)) (hm : (m.map Prod.fst).Nodup) (c : Dict String Val)
    (h : datasetConfig defaults (some (.map m)) = some c) :
    segmentationIgnore c = (Dict.get? m "segmentation_ignore_values").getD (.seq []) ∧
    undistortedIgnore c = (Dict.get? m "undistorted_segmentation_ignore_values").getD
      ((Dict.get? m "segmentation_ignore_values").getD (.seq [])) := by
  have hd1 : defaults.get? "segmentation_ignore_values" = none := by
    rw [Dict.get?_eq_none_iff]; decide +kernel
  have hd2 : defaults.get? "undistorted_segmentation_ignore_values" = none := by
    rw [Dict.get?_eq_none_iff]; decide +kernel
  have hc : ∀ k, defaults.get? k = none → c.get? k = Dict.get? m k := by
    intro k hk
    obtain ⟨c', h1, h2, h3⟩ := C60_override m hm k
    rw [h] at h1
    cases h1
    cases hg : Dict.get? m k with
    | some v => exact h2 v (Dict.mem_of_get? hg)
    | none =>
      rw [h3, hk]
      intro v hv
      rw [Dict.get?_of_mem hm hv] at hg
      cases hg
  unfold undistortedIgnore segmentationIgnore
  rw [hc _ hd1, hc _ hd2]
  exact ⟨rfl, rfl⟩

set_option maxRecDepth 20000 in
/-- The hypotheses are met: a file that changes one value and adds another. -/
example : ∃ c, datasetConfig defaults (some (.map [("processes", .num 4), ("mine", .str "x")])) = some c ∧
    c.get? "processes" = some (.num 4) ∧ c.get? "mine" = some (.str "x") ∧
    c.get? "feature_type" = some (.str "HAHOG") :=
  ⟨_, rfl, by rfl, by rfl, by rfl⟩

end Verif.Config
