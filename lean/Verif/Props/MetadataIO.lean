import Verif.Model.ReconstructionIO
import Mathlib.Tactic.FinCases

/-!
# C48: shot metadata and shot attributes in JSON
-/
set_option linter.unusedSimpArgs false
namespace Verif.RecIO
open Verif.CameraIO

theorem vec3?_vec3J (v : ℚ × ℚ × ℚ) : vec3? (vec3J v) = some v := by
  simp [vec3?, vec3J, J.nums?_ofNums]

theorem int?_cast (z : ℤ) : int? (.num (z : ℚ)) = some z := by simp [int?]

theorem mat?_matJ (m : List (List ℚ)) : mat? (matJ m) = some m := by
  unfold matJ mat?
  induction m with
  | nil => rfl
  | cons a l ih =>
    simp only [List.map_cons, List.mapM_cons, J.nums?_ofNums] at ih ⊢
    simp only [ih]; rfl

/-- The keys that hold metadata. -/
def metaKeys : List String :=
  ["orientation", "capture_time", "gps_dop", "gps_position", "gravity_down", "compass", "skey"]

/-- What the JSON form keeps of a metadata record: all but `opk_angles`, `opk_accuracy` and
`attributes`. -/
def Meta.written (m : Meta) : Meta :=
  { m with opkAngles := none, opkAccuracy := none, attributes := [] }

theorem get?_append (a b : Dict String J) (k : String) :
    Dict.get? (a ++ b) k = match Dict.get? a k with | some v => some v | none => Dict.get? b k := by
  induction a with
  | nil => rfl
  | cons p a ih =>
    obtain ⟨x, y⟩ := p
    by_cases h : x = k <;> simp [Dict.get?, h, ih]

theorem get?_entry {α : Type} (k k' : String) (f : α → J) (o : Option α) :
    Dict.get? (entry k f o) k' = if k = k' then o.map f else none := by
  cases o <;> simp [entry, Dict.get?]

theorem get?_compass (a b : Option ℚ) (k : String) :
    Dict.get? (compassEntry a b) k =
      if "compass" = k then Dict.get? (compassEntry a b) "compass" else none := by
  cases a <;> cases b <;> simp [compassEntry, Dict.get?]

/-- `metaToJson` uses no other key. -/
theorem get?_meta_other (m : Meta) (k : String) (h : k ∉ metaKeys) :
    Dict.get? (metaToJson m) k = none := by
  simp only [metaKeys, List.mem_cons, not_or, List.mem_nil_iff] at h
  obtain ⟨h1, h2, h3, h4, h5, h6, h7, -⟩ := h
  simp only [metaToJson, get?_append, get?_entry, get?_compass _ _ k, Ne.symm h1, Ne.symm h2,
    Ne.symm h3, Ne.symm h4, Ne.symm h5, Ne.symm h6, Ne.symm h7, if_neg, not_false_eq_true]

/-- A dictionary holds the metadata `m` under the metadata keys. -/
def Holds (o : J) (m : Meta) : Prop := ∀ k ∈ metaKeys, o.get? k = Dict.get? (metaToJson m) k

theorem readField_num (o : J) (k : String) (x : Option ℚ) (h : o.get? k = x.map J.num) :
    readField o k J.num? = some x := by
  cases x <;> simp [readField, h, J.num?]

theorem readField_str (o : J) (k : String) (x : Option String) (h : o.get? k = x.map J.str) :
    readField o k J.str? = some x := by
  cases x <;> simp [readField, h, J.str?]

theorem readField_int (o : J) (k : String) (x : Option ℤ)
    (h : o.get? k = x.map fun z : ℤ => J.num z) : readField o k int? = some x := by
  cases x <;> simp [readField, h, int?]

theorem readField_vec (o : J) (k : String) (x : Option (ℚ × ℚ × ℚ)) (h : o.get? k = x.map vec3J) :
    readField o k vec3? = some x := by
  cases x with
  | none => simp [readField, h]
  | some v =>
    simp only [readField, h, Option.map_some]
    have : ∀ l, vec3J v = J.arr l → True := fun _ _ => trivial
    simp [vec3J, J.ofNums, vec3?, J.nums?, J.num?]

/-- Whatever else the object contains, the metadata read is that written, without the three
fields that are never written. -/
theorem metaFromJson_of_holds (o : J) (m : Meta) (h : Holds o m) :
    metaFromJson o = some m.written := by
  have hor := h "orientation" (by decide)
  have hct := h "capture_time" (by decide)
  have hdop := h "gps_dop" (by decide)
  have hpos := h "gps_position" (by decide)
  have hgr := h "gravity_down" (by decide)
  have hco := h "compass" (by decide)
  have hsk := h "skey" (by decide)
  simp only [metaToJson, get?_append, get?_entry] at hor hct hdop hpos hgr hco hsk
  have hor' : o.get? "orientation" = m.orientation.map fun z : ℤ => J.num z := by
    rw [hor]; cases m.orientation <;> simp [get?_compass _ _ "orientation"]
  have hct' : o.get? "capture_time" = m.captureTime.map J.num := by
    rw [hct]; cases m.captureTime <;> simp [get?_compass _ _ "capture_time"]
  have hdop' : o.get? "gps_dop" = m.gpsAccuracy.map J.num := by
    rw [hdop]; cases m.gpsAccuracy <;> simp [get?_compass _ _ "gps_dop"]
  have hpos' : o.get? "gps_position" = m.gpsPosition.map vec3J := by
    rw [hpos]; cases m.gpsPosition <;> simp [get?_compass _ _ "gps_position"]
  have hgr' : o.get? "gravity_down" = m.gravityDown.map vec3J := by
    rw [hgr]; cases m.gravityDown <;> simp [get?_compass _ _ "gravity_down"]
  have hsk' : o.get? "skey" = m.sequenceKey.map J.str := by
    rw [hsk]; cases m.sequenceKey <;> simp [get?_compass _ _ "skey"]
  have hcomp : readCompass o = some (m.compassAngle, m.compassAccuracy) := by
    unfold readCompass
    rw [hco]
    cases m.compassAngle <;> cases m.compassAccuracy <;>
      simp [compassEntry, Dict.get?, readCompassField, J.get?, J.num?]
  simp only [metaFromJson, readField_int o _ _ hor', readField_num o _ _ hct',
    readField_num o _ _ hdop', readField_vec o _ _ hpos', readField_str o _ _ hsk',
    readField_vec o _ _ hgr', hcomp, Meta.written]

/-- **C48.** Writing metadata and reading it back keeps every field that is written, present or
absent, for all 2^8 presence patterns and all values. -/
theorem C48_roundtrip (m : Meta) :
    metaFromJson (.obj (metaToJson m)) = some m.written := by
  apply metaFromJson_of_holds
  intro k _; rfl

/-- Nothing is lost when the angles of the camera (omega, phi, kappa) and the free attributes are
absent. -/
theorem C48_lossless (m : Meta) (h1 : m.opkAngles = none) (h2 : m.opkAccuracy = none)
    (h3 : m.attributes = []) : metaFromJson (.obj (metaToJson m)) = some m := by
  rw [C48_roundtrip]
  obtain ⟨⟩ := m
  simp_all [Meta.written]

/-- The round trip loses the opk angles, their accuracy and the attributes, whatever they are. -/
theorem C48_opk_lost (m : Meta) (m' : Meta) (h : metaFromJson (.obj (metaToJson m)) = some m') :
    m'.opkAngles = none ∧ m'.opkAccuracy = none ∧ m'.attributes = [] := by
  rw [C48_roundtrip] at h
  cases h
  exact ⟨rfl, rfl, rfl⟩

/-- The dictionary written has one entry per present field, under the documented key, with the
compass fields grouped; absent fields have no entry. -/
theorem C48_written_keys (m : Meta) :
    ((Dict.get? (metaToJson m) "orientation").isSome ↔ m.orientation.isSome) ∧
    ((Dict.get? (metaToJson m) "capture_time").isSome ↔ m.captureTime.isSome) ∧
    ((Dict.get? (metaToJson m) "gps_dop").isSome ↔ m.gpsAccuracy.isSome) ∧
    ((Dict.get? (metaToJson m) "gps_position").isSome ↔ m.gpsPosition.isSome) ∧
    ((Dict.get? (metaToJson m) "gravity_down").isSome ↔ m.gravityDown.isSome) ∧
    ((Dict.get? (metaToJson m) "skey").isSome ↔ m.sequenceKey.isSome) ∧
    ((Dict.get? (metaToJson m) "compass").isSome ↔
      m.compassAngle.isSome ∨ m.compassAccuracy.isSome) ∧
    ∀ k, (Dict.get? (metaToJson m) k).isSome → k ∈ metaKeys := by
  refine ⟨?_, ?_, ?_, ?_, ?_, ?_, ?_, ?_⟩
  · simp only [metaToJson, get?_append, get?_entry]
    cases m.orientation <;> simp [get?_compass _ _ "orientation"]
  · simp only [metaToJson, get?_append, get?_entry]
    cases m.captureTime <;> simp [get?_compass _ _ "capture_time"]
  · simp only [metaToJson, get?_append, get?_entry]
    cases m.gpsAccuracy <;> simp [get?_compass _ _ "gps_dop"]
  · simp only [metaToJson, get?_append, get?_entry]
    cases m.gpsPosition <;> simp [get?_compass _ _ "gps_position"]
  · simp only [metaToJson, get?_append, get?_entry]
    cases m.gravityDown <;> simp [get?_compass _ _ "gravity_down"]
  · simp only [metaToJson, get?_append, get?_entry]
    cases m.sequenceKey <;> simp [get?_compass _ _ "skey"]
  · simp only [metaToJson, get?_append, get?_entry]
    cases m.compassAngle <;> cases m.compassAccuracy <;> simp [compassEntry, Dict.get?]
  · intro k hk
    by_contra hc
    rw [get?_meta_other m k hc] at hk
    simp at hk

/-- Replacing the value under a metadata key by `null` is the same as leaving the key out: every
object in which the key is `null` reads like the one in which it is absent. -/
theorem C48_null (o o' : J) (k : String) (_hk : k ∈ metaKeys) (h1 : o.get? k = some .null)
    (h2 : o'.get? k = none) (h : ∀ k', k' ≠ k → o.get? k' = o'.get? k') :
    metaFromJson o = metaFromJson o' := by
  have key : ∀ {α : Type} (k' : String) (f : J → Option α),
      readField o k' f = readField o' k' f := by
    intro α k' f
    by_cases hkk : k' = k
    · subst hkk; simp [readField, h1, h2]
    · simp [readField, h k' hkk]
  have comp : readCompass o = readCompass o' := by
    by_cases hkk : "compass" = k
    · subst hkk; simp [readCompass, h1, h2]
    · simp [readCompass, h "compass" hkk]
  simp only [metaFromJson, key, comp]

/-- `copy(metadata)` and `metadata.set(other)` copy every field, whatever was there before. -/
theorem C48_copy (old m : Meta) : Meta.setFrom old m = m := rfl

theorem holds_shot {P : Type} (cd : Codec P) (pose : P) (cam : String) (a : Attrs) :
    Holds (shotToJson cd pose cam a) a.metadata := by
  intro k hk
  simp only [metaKeys, List.mem_cons, List.mem_nil_iff, or_false] at hk
  simp only [shotToJson, J.get?, get?_append]
  rcases hk with rfl | rfl | rfl | rfl | rfl | rfl | rfl <;>
    (simp only [Dict.get?]; simp; split <;> simp_all)

theorem get?_shot_other {P : Type} (cd : Codec P) (pose : P) (cam : String) (a : Attrs) (k : String)
    (hk : k ∉ metaKeys) :
    (shotToJson cd pose cam a).get? k =
      Dict.get? [("rotation", vec3J (cd.rot pose)), ("translation", vec3J (cd.trans pose)),
      ("camera", .str cam), ("vertices", matJ a.vertices), ("faces", matJ a.faces),
      ("scale", .num a.scale), ("covariance", matJ a.covariance), ("merge_cc", .num a.mergeCc)] k := by
  simp only [shotToJson, J.get?, get?_append, get?_meta_other a.metadata k hk]
  simp only [Dict.get?]
  repeat' split
  all_goals simp_all

/-- Reading the JSON of a shot gives its pose, its camera id and its attributes (measurements,
mesh, scale, covariance, `merge_cc`), whatever they are: no key of one part hides another. -/
theorem C48_shot {P : Type} (cd : Codec P) (hcd : cd.Lawful) (pose : P) (cam : String) (a : Attrs) :
    poseFromJson cd (shotToJson cd pose cam a) = some pose ∧
    cameraKey (shotToJson cd pose cam a) = some cam ∧
    attrsFromJson (shotToJson cd pose cam a) = some { a with metadata := a.metadata.written } := by
  have g := fun k hk => get?_shot_other cd pose cam a k hk
  refine ⟨?_, ?_, ?_⟩
  · have h1 := g "rotation" (by decide)
    have h2 := g "translation" (by decide)
    simp [Dict.get?] at h1 h2
    simp [poseFromJson, reqVec, h1, h2, vec3?_vec3J, hcd pose]
  · have h1 := g "camera" (by decide)
    simp [Dict.get?] at h1
    simp [cameraKey, h1, J.str?]
  · have h1 := g "vertices" (by decide)
    have h2 := g "faces" (by decide)
    have h3 := g "scale" (by decide)
    have h4 := g "covariance" (by decide)
    have h5 := g "merge_cc" (by decide)
    simp [Dict.get?] at h1 h2 h3 h4 h5
    simp [attrsFromJson, metaFromJson_of_holds _ _ (holds_shot cd pose cam a), attrOr, h1, h2, h3, h4,
      h5, mat?_matJ, J.num?, int?_cast, Meta.setFrom]

/-- A record with every field present: the hypotheses of `C48_lossless` and the loss both show. -/
def sampleMeta : Meta :=
  { gpsAccuracy := some 5, gpsPosition := some (1, 2, 3), orientation := some 6
    captureTime := some (3 / 2), gravityDown := some (0, 0, 1), compassAngle := some 90
    compassAccuracy := none, sequenceKey := some "seq" }

example : metaFromJson (.obj (metaToJson sampleMeta)) = some sampleMeta :=
  C48_lossless sampleMeta rfl rfl rfl

example : metaFromJson (.obj (metaToJson { sampleMeta with opkAngles := some (1, 2, 3) }))
    = some sampleMeta := C48_roundtrip _

end Verif.RecIO
