import Verif.Model.CameraIO
import Mathlib.Tactic.FieldSimp
import Mathlib.Tactic.Ring
import Mathlib.Tactic.Linarith

/-!
# C46, C47, C65: cameras keep their parameters

`layout` is the specification of a well-formed camera: which parameters a camera of each type
has, in which order.
-/
set_option linter.unusedSimpArgs false
namespace Verif.CameraIO

/-- The parameters of each projection type. -/
def layout : PType → List Param
  | .perspective => [.k1, .k2, .focal]
  | .fisheye => [.k1, .k2, .focal]
  | .brown => [.k1, .k2, .k3, .p1, .p2, .focal, .aspectRatio, .cx, .cy]
  | .fisheyeOpencv => [.k1, .k2, .k3, .k4, .focal, .aspectRatio, .cx, .cy]
  | .fisheye62 => [.k1, .k2, .k3, .k4, .k5, .k6, .p1, .p2, .focal, .aspectRatio, .cx, .cy]
  | .fisheye624 =>
    [.k1, .k2, .k3, .k4, .k5, .k6, .p1, .p2, .s0, .s1, .s2, .s3, .focal, .aspectRatio, .cx, .cy]
  | .dual => [.transition, .k1, .k2, .focal]
  | .spherical => [.none]
  | .radial => [.k1, .k2, .focal, .aspectRatio, .cx, .cy]
  | .simpleRadial => [.k1, .focal, .aspectRatio, .cx, .cy]

/-- A camera with the parameters of its type. The dummy parameter of a spherical camera is 0. -/
def Legal (c : Cam) : Prop :=
  c.types = layout c.ptype ∧ c.values.length = (layout c.ptype).length ∧
    (c.ptype = .spherical → c.values = [0])

/-- A camera that can be written with `focal_y / focal_x`: the affine types need a non-zero
focal. -/
def Usable (c : Cam) : Prop := Param.aspectRatio ∈ layout c.ptype → c.get .focal ≠ some 0

theorem pyInt_cast (z : ℤ) : pyInt (z : ℚ) = z := by simp [pyInt]

/-- Every `Create...` function gives a camera with the layout of its type, holding its arguments
under their own names, of size 1 × 1 and with an empty id. -/
theorem C65_create (f a x y k1 k2 k3 k4 k5 k6 p1 p2 s0 s1 s2 s3 t : ℚ) :
    (Legal (createPerspective f k1 k2) ∧ (createPerspective f k1 k2).get .focal = some f ∧
      (createPerspective f k1 k2).get .k1 = some k1 ∧ (createPerspective f k1 k2).get .k2 = some k2) ∧
    (Legal (createFisheye f k1 k2) ∧ (createFisheye f k1 k2).get .focal = some f ∧
      (createFisheye f k1 k2).get .k1 = some k1 ∧ (createFisheye f k1 k2).get .k2 = some k2) ∧
    (Legal (createDual t f k1 k2) ∧ (createDual t f k1 k2).get .focal = some f ∧
      (createDual t f k1 k2).get .transition = some t ∧
      (createDual t f k1 k2).get .k1 = some k1 ∧ (createDual t f k1 k2).get .k2 = some k2) ∧
    Legal createSpherical ∧
    (∃ c, createBrown f a (x, y) [k1, k2, k3, p1, p2] = some c ∧ Legal c ∧
      c.principalPoint = some (x, y) ∧ c.distortion = [k1, k2, k3, p1, p2] ∧
      c.get .focal = some f ∧ c.get .aspectRatio = some a) ∧
    (∃ c, createFisheyeOpencv f a (x, y) [k1, k2, k3, k4] = some c ∧ Legal c ∧
      c.principalPoint = some (x, y) ∧ c.distortion = [k1, k2, k3, k4] ∧
      c.get .focal = some f ∧ c.get .aspectRatio = some a) ∧
    (∃ c, createFisheye62 f a (x, y) [k1, k2, k3, k4, k5, k6, p1, p2] = some c ∧ Legal c ∧
      c.principalPoint = some (x, y) ∧ c.distortion = [k1, k2, k3, k4, k5, k6, p1, p2] ∧
      c.get .focal = some f ∧ c.get .aspectRatio = some a) ∧
    (∃ c, createFisheye624 f a (x, y) [k1, k2, k3, k4, k5, k6, p1, p2, s0, s1, s2, s3] = some c ∧
      Legal c ∧ c.principalPoint = some (x, y) ∧
      c.distortion = [k1, k2, k3, k4, k5, k6, p1, p2, s0, s1, s2, s3] ∧
      c.get .focal = some f ∧ c.get .aspectRatio = some a) ∧
    (Legal (createRadial f a (x, y) (k1, k2)) ∧
      (createRadial f a (x, y) (k1, k2)).principalPoint = some (x, y) ∧
      (createRadial f a (x, y) (k1, k2)).distortion = [k1, k2] ∧
      (createRadial f a (x, y) (k1, k2)).get .focal = some f ∧
      (createRadial f a (x, y) (k1, k2)).get .aspectRatio = some a) ∧
    (Legal (createSimpleRadial f a (x, y) k1) ∧
      (createSimpleRadial f a (x, y) k1).principalPoint = some (x, y) ∧
      (createSimpleRadial f a (x, y) k1).distortion = [k1] ∧
      (createSimpleRadial f a (x, y) k1).get .focal = some f ∧
      (createSimpleRadial f a (x, y) k1).get .aspectRatio = some a) := by
  refine ⟨?_, ?_, ?_, ?_, ⟨_, rfl, ?_⟩, ⟨_, rfl, ?_⟩, ⟨_, rfl, ?_⟩, ⟨_, rfl, ?_⟩, ?_, ?_⟩ <;>
    simp [Legal, layout, createPerspective, createFisheye, createDual, createSpherical,
      createRadial, createSimpleRadial, Cam.get, getValue, Cam.principalPoint, Cam.distortion,
      paramsMap, Dict.set, Dict.get?, distoTypes]

/-- Setting a parameter a camera has changes that parameter and no other, and keeps the camera
legal; setting or reading one it does not have raises. -/
theorem C65_set_get (c : Cam) (hl : c.types.length = c.values.length) (hn : c.types.Nodup)
    (p : Param) (x : ℚ) :
    (p ∈ c.types → ∃ c', c.set p x = some c' ∧ c'.types = c.types ∧
      c'.ptype = c.ptype ∧ c'.width = c.width ∧ c'.height = c.height ∧ c'.id = c.id ∧
      c'.values.length = c.values.length ∧ c'.get p = some x ∧
      ∀ q, q ≠ p → c'.get q = c.get q) ∧
    (p ∉ c.types → c.set p x = none ∧ c.get p = none) := by
  obtain ⟨pt, ts, vs, w, h, i⟩ := c
  simp only at hl hn
  have key : ∀ (ts : List Param) (vs : List ℚ), ts.length = vs.length → ts.Nodup →
      (p ∈ ts → ∃ vs', setValue ts vs p x = some vs' ∧ vs'.length = vs.length ∧
        getValue ts vs' p = some x ∧ ∀ q, q ≠ p → getValue ts vs' q = getValue ts vs q) ∧
      (p ∉ ts → setValue ts vs p x = none ∧ getValue ts vs p = none) := by
    intro ts
    induction ts with
    | nil => intro vs _ _; simp [setValue, getValue]
    | cons t ts ih =>
      intro vs hl hn
      cases vs with
      | nil => simp at hl
      | cons v vs =>
        rw [List.nodup_cons] at hn
        obtain ⟨ih1, ih2⟩ := ih vs (by simpa using hl) hn.2
        refine ⟨?_, ?_⟩
        · intro hp
          by_cases htp : t = p
          · refine ⟨x :: vs, by simp [setValue, htp], rfl, by simp [getValue, htp], ?_⟩
            intro q hq
            have : t ≠ q := by rw [htp]; exact Ne.symm hq
            simp [getValue, this]
          · rcases List.mem_cons.1 hp with h | h
            · exact absurd h.symm htp
            · obtain ⟨vs', e1, e2, e3, e4⟩ := ih1 h
              refine ⟨v :: vs', by simp [setValue, htp, e1], by simp [e2],
                by simp [getValue, htp, e3], ?_⟩
              intro q hq
              simp only [getValue]
              rw [e4 q hq]
        · intro hp
          rw [List.mem_cons, not_or] at hp
          obtain ⟨e1, e2⟩ := ih2 hp.2
          have : t ≠ p := Ne.symm hp.1
          simp [setValue, getValue, this, e1, e2]
  obtain ⟨k1, k2⟩ := key ts vs hl hn
  refine ⟨?_, ?_⟩
  · intro hp
    obtain ⟨vs', e1, e2, e3, e4⟩ := k1 hp
    exact ⟨⟨pt, ts, vs', w, h, i⟩, by simp [Cam.set, e1], rfl, rfl, rfl, rfl, rfl, e2, e3, e4⟩
  · intro hp
    obtain ⟨e1, e2⟩ := k2 hp
    exact ⟨by simp [Cam.set, e1], e2⟩

theorem layout_nodup (t : PType) : (layout t).Nodup := by cases t <;> decide

/-- The `distortion` setter never accepts what the `distortion` getter returns, except for
spherical cameras (which have none): between `K1` and `S3` the enum also holds the focal length,
the aspect ratio and the principal point, so the setter reads past the end of the vector. -/
theorem C65_distortion_setter (c : Cam) (hc : Legal c) :
    (c.setDistortion c.distortion).isSome ↔ c.ptype = .spherical := by
  obtain ⟨pt, ts, vs, w, h, i⟩ := c
  obtain ⟨h1, h2, h3⟩ := hc
  simp only at h1 h2 h3
  subst h1
  cases pt <;> simp only [layout, List.length_cons, List.length_nil] at h2 <;> norm_num at h2
  · match vs, h2 with
    | [a, b, c], _ =>
      simp [Cam.setDistortion, Cam.distortion, layout, setDistLoop, Param.toInt, paramsMap,
        Dict.set, Dict.get?, distoTypes, Cam.set, setValue]
  · match vs, h2 with
    | [a, b, c, d, e, f, g, h, i], _ =>
      simp [Cam.setDistortion, Cam.distortion, layout, setDistLoop, Param.toInt, paramsMap,
        Dict.set, Dict.get?, distoTypes, Cam.set, setValue]
  · match vs, h2 with
    | [a, b, c], _ =>
      simp [Cam.setDistortion, Cam.distortion, layout, setDistLoop, Param.toInt, paramsMap,
        Dict.set, Dict.get?, distoTypes, Cam.set, setValue]
  · match vs, h2 with
    | [a, b, c, d, e, f, g, h], _ =>
      simp [Cam.setDistortion, Cam.distortion, layout, setDistLoop, Param.toInt, paramsMap,
        Dict.set, Dict.get?, distoTypes, Cam.set, setValue]
  · match vs, h2 with
    | [a, b, c, d, e, f, g, h, i, j, k, l], _ =>
      simp [Cam.setDistortion, Cam.distortion, layout, setDistLoop, Param.toInt, paramsMap,
        Dict.set, Dict.get?, distoTypes, Cam.set, setValue]
  · match vs, h2 with
    | [a, b, c, d, e, f, g, h, i, j, k, l, m, n, o, p], _ =>
      simp [Cam.setDistortion, Cam.distortion, layout, setDistLoop, Param.toInt, paramsMap,
        Dict.set, Dict.get?, distoTypes, Cam.set, setValue]
  · match vs, h2 with
    | [a, b, c, d], _ =>
      simp [Cam.setDistortion, Cam.distortion, layout, setDistLoop, Param.toInt, paramsMap,
        Dict.set, Dict.get?, distoTypes, Cam.set, setValue]
  · simp [Cam.setDistortion, Cam.distortion, layout, setDistLoop, Param.toInt, h3]
  · match vs, h2 with
    | [a, b, c, d, e, f], _ =>
      simp [Cam.setDistortion, Cam.distortion, layout, setDistLoop, Param.toInt, paramsMap,
        Dict.set, Dict.get?, distoTypes, Cam.set, setValue]
  · match vs, h2 with
    | [a, b, c, d, e], _ =>
      simp [Cam.setDistortion, Cam.distortion, layout, setDistLoop, Param.toInt, paramsMap,
        Dict.set, Dict.get?, distoTypes, Cam.set, setValue]

/-- Given a longer vector, the setter silently overwrites the focal length. -/
theorem C65_distortion_focal (f k1 k2 a b d : ℚ) :
    ((createPerspective f k1 k2).setDistortion [a, b, d]).bind (·.get .focal) = some d := by
  simp [createPerspective, Cam.setDistortion, setDistLoop, Param.toInt, Cam.set, setValue, Cam.get,
    getValue]

theorem get?_paramsMap (ts : List Param) (vs : List ℚ) (m : Dict Param ℚ) (hn : ts.Nodup) (p : Param) :
    Dict.get? (paramsMap ts vs m) p = (getValue ts vs p).or (Dict.get? m p) := by
  induction ts generalizing vs m with
  | nil => simp [paramsMap, getValue]
  | cons t ts ih =>
    obtain ⟨h1, h2⟩ := List.nodup_cons.1 hn
    cases vs with
    | nil => simp [paramsMap, getValue]
    | cons v vs =>
      have key : ∀ (ts : List Param) (vs : List ℚ), t ∉ ts → getValue ts vs t = none := by
        intro ts
        induction ts with
        | nil => intro vs _; simp [getValue]
        | cons a ts ih =>
          intro vs ha
          cases vs with
          | nil => simp [getValue]
          | cons b vs =>
            simp only [List.mem_cons, not_or] at ha
            simp only [getValue, if_neg (Ne.symm ha.1)]
            exact ih vs ha.2
      simp only [paramsMap, getValue]
      rw [ih vs _ h2, Dict.get?_set]
      by_cases h : t = p
      · subst h
        rw [key ts vs h1]
        simp
      · rw [if_neg h, if_neg h]

/-- The calibration matrix is made of the camera's own parameters: `focal` on the diagonal, times
the aspect ratio in the second row, and the principal point; a parameter the projection type does
not have counts as 1, or 0 for the principal point. -/
theorem C65_matrix (c : Cam) (hn : c.types.Nodup) :
    c.projectionMatrix.1 = (c.get .focal).getD 1 ∧
    c.projectionMatrix.2.1 = (c.get .focal).getD 1 * (c.get .aspectRatio).getD 1 ∧
    c.projectionMatrix.2.2.1 = (c.get .cx).getD 0 ∧ c.projectionMatrix.2.2.2 = (c.get .cy).getD 0 := by
  have h : ∀ p, Dict.get? (paramsMap c.types c.values []) p = c.get p := by
    intro p
    rw [get?_paramsMap _ _ _ hn]
    simp [Cam.get, Dict.get?]
  unfold Cam.projectionMatrix
  simp only [h, and_self]

/-- A Brown camera: no parameter is missing. -/
example : ((createBrown 2 (3 / 4) (1 / 8, 1 / 16) [0, 0, 0, 0, 0]).map Cam.projectionMatrix) =
    some (2, 3 / 2, 1 / 8, 1 / 16) := by
  decide +kernel

/-- The calibration matrix in pixels of a `w × h` image agrees with the normalised one: a bearing
direction `(X, Y, 1)` projected by the normalised matrix and converted to pixel coordinates with
their origin at the image corner is its projection by the scaled matrix. -/
theorem C65_scaled_matrix (c : Cam) (w h : ℕ) (X Y : ℚ) :
    (c.projectionMatrixScaled w h).1 * X + (c.projectionMatrixScaled w h).2.2.1 =
      (c.projectionMatrix.1 * X + c.projectionMatrix.2.2.1) * ((max w h : ℕ) : ℚ) + (w : ℚ) / 2 ∧
    (c.projectionMatrixScaled w h).2.1 * Y + (c.projectionMatrixScaled w h).2.2.2 =
      (c.projectionMatrix.2.1 * Y + c.projectionMatrix.2.2.2) * ((max w h : ℕ) : ℚ) +
        (h : ℚ) / 2 := by
  refine ⟨?_, ?_⟩ <;> simp only [Cam.projectionMatrixScaled] <;> ring

/-! ## C46 -/

/-- Unfolding used by the ten cases of the round trip. -/
theorem optNum_num (l : List (String × J)) (k : String) (q d : ℚ) (h : Dict.get? l k = some (.num q)) :
    (J.obj l).optNum k d = some q := by simp [J.optNum, J.get?, h, J.num?]

set_option maxHeartbeats 2000000 in
/-- Writing a camera to JSON and reading it back gives the same camera, for every projection
type and all parameter values (with a non-zero focal for the types stored as `focal_x`,
`focal_y`). -/
theorem C46_roundtrip (c : Cam) (hc : Legal c) (hu : Usable c) :
    ∃ j, cameraToJson c = some j ∧ cameraFromJson c.id j = some c := by
  obtain ⟨pt, ts, vs, w, h, i⟩ := c
  obtain ⟨h1, h2, h3⟩ := hc
  simp only at h1 h2 h3
  subst h1
  have hw := pyInt_cast w
  have hh := pyInt_cast h
  cases pt <;> simp only [layout, List.length_cons, List.length_nil] at h2 <;> norm_num at h2
  · match vs, h2 with
    | [k1, k2, f], _ =>
      refine ⟨_, rfl, ?_⟩
      simp [cameraFromJson, J.get?, J.str?, J.reqNum, J.optNum, J.num?, head, Dict.get?,
        PType.toString, cameraOfType, createPerspective, layout, hw, hh]
  · match vs, h2 with
    | [k1, k2, k3, p1, p2, f, a, x, y], _ =>
      have hf : f ≠ 0 := by
        simpa [Usable, layout, Cam.get, getValue] using hu
      refine ⟨_, rfl, ?_⟩
      simp [cameraFromJson, J.get?, J.str?, J.reqNum, J.optNum, J.num?, head, Dict.get?,
        PType.toString, cameraOfType, createBrown, layout, hw, hh, withAffine, readAffine, readDist,
        pyDiv, hf]
  · match vs, h2 with
    | [k1, k2, f], _ =>
      refine ⟨_, rfl, ?_⟩
      simp [cameraFromJson, J.get?, J.str?, J.reqNum, J.optNum, J.num?, head, Dict.get?,
        PType.toString, cameraOfType, createFisheye, layout, hw, hh]
  · match vs, h2 with
    | [k1, k2, k3, k4, f, a, x, y], _ =>
      have hf : f ≠ 0 := by
        simpa [Usable, layout, Cam.get, getValue] using hu
      refine ⟨_, rfl, ?_⟩
      simp [cameraFromJson, J.get?, J.str?, J.reqNum, J.optNum, J.num?, head, Dict.get?,
        PType.toString, cameraOfType, createFisheyeOpencv, layout, hw, hh, withAffine, readAffine,
        readDist, pyDiv, hf]
  · match vs, h2 with
    | [k1, k2, k3, k4, k5, k6, p1, p2, f, a, x, y], _ =>
      have hf : f ≠ 0 := by
        simpa [Usable, layout, Cam.get, getValue] using hu
      refine ⟨_, rfl, ?_⟩
      simp [cameraFromJson, J.get?, J.str?, J.reqNum, J.optNum, J.num?, head, Dict.get?,
        PType.toString, cameraOfType, createFisheye62, layout, hw, hh, withAffine, readAffine,
        readDist, pyDiv, hf]
  · match vs, h2 with
    | [k1, k2, k3, k4, k5, k6, p1, p2, s0, s1, s2, s3, f, a, x, y], _ =>
      have hf : f ≠ 0 := by
        simpa [Usable, layout, Cam.get, getValue] using hu
      refine ⟨_, rfl, ?_⟩
      simp [cameraFromJson, J.get?, J.str?, J.reqNum, J.optNum, J.num?, head, Dict.get?,
        PType.toString, cameraOfType, createFisheye624, layout, hw, hh, withAffine, readAffine,
        readDist, pyDiv, hf]
  · match vs, h2 with
    | [t, k1, k2, f], _ =>
      refine ⟨_, rfl, ?_⟩
      simp [cameraFromJson, J.get?, J.str?, J.reqNum, J.optNum, J.num?, head, Dict.get?,
        PType.toString, cameraOfType, createDual, layout, hw, hh]
  · have h3 := h3 rfl
    subst h3
    refine ⟨_, rfl, ?_⟩
    simp [cameraFromJson, J.get?, J.str?, J.reqNum, J.optNum, J.num?, head, Dict.get?,
      PType.toString, cameraOfType, createSpherical, isPanorama, layout, hw, hh]
  · match vs, h2 with
    | [k1, k2, f, a, x, y], _ =>
      have hf : f ≠ 0 := by
        simpa [Usable, layout, Cam.get, getValue] using hu
      refine ⟨_, rfl, ?_⟩
      simp [cameraFromJson, J.get?, J.str?, J.reqNum, J.optNum, J.num?, head, Dict.get?,
        PType.toString, cameraOfType, createRadial, layout, hw, hh, withAffine, readAffine,
        readDist, pyDiv, hf]
  · match vs, h2 with
    | [k1, f, a, x, y], _ =>
      have hf : f ≠ 0 := by
        simpa [Usable, layout, Cam.get, getValue] using hu
      refine ⟨_, rfl, ?_⟩
      simp [cameraFromJson, J.get?, J.str?, J.reqNum, J.optNum, J.num?, head, Dict.get?,
        PType.toString, cameraOfType, createSimpleRadial, layout, hw, hh, withAffine, readAffine,
        readDist, pyDiv, hf]

/-- The projection types whose JSON has `focal_x`, `focal_y`. -/
def affineTypes : List String :=
  ["brown", "fisheye_opencv", "fisheye62", "fisheye624", "radial", "simple_radial"]

/-- A camera file with `focal_x = 0` cannot be read (`ZeroDivisionError`), so a camera of an
affine type whose focal length is 0 can be written but never read back. -/
theorem C46_zero_focal (key : String) (o : J) (pt : String) (hpt : pt ∈ affineTypes)
    (ho : o.get? "projection_type" = some (.str pt)) (hf : o.reqNum "focal_x" = some 0) :
    cameraFromJson key o = none := by
  have hra : readAffine o = none := by
    unfold readAffine
    rw [hf]
    cases o.reqNum "focal_y" with
    | none => rfl
    | some fy =>
      cases o.optNum "c_x" 0 with
      | none => rfl
      | some x =>
        cases o.optNum "c_y" 0 with
        | none => rfl
        | some y => simp [pyDiv]
  have hwa : ∀ keys f, withAffine o keys f = none := by
    intro keys f; simp [withAffine, hra]
  have : cameraOfType o pt = none := by
    simp only [affineTypes, List.mem_cons, List.not_mem_nil, or_false] at hpt
    rcases hpt with rfl | rfl | rfl | rfl | rfl | rfl <;> simp [cameraOfType, hwa]
  simp [cameraFromJson, ho, J.str?, this]

/-- The names a camera file may use. -/
def knownTypes : List String :=
  ["perspective", "brown", "fisheye", "fisheye_opencv", "fisheye62", "fisheye624", "radial",
    "simple_radial", "dual", "spherical", "equirectangular"]

/-- An unknown projection type raises, whatever else the object holds. -/
theorem C46_unknown (key : String) (o : J) (pt : String) (hpt : pt ∉ knownTypes)
    (ho : o.get? "projection_type" = some (.str pt)) : cameraFromJson key o = none := by
  have : cameraOfType o pt = none := by
    simp only [knownTypes, List.mem_cons, List.not_mem_nil, or_false, not_or] at hpt
    simp [cameraOfType, hpt, isPanorama]
  simp [cameraFromJson, ho, J.str?, this]

theorem withAffine_legal {o : J} {keys : List String} {f : ℚ → ℚ → ℚ × ℚ → List ℚ → Option Cam}
    (hf : ∀ a b c d r, f a b c d = some r → Legal r) {c : Cam} (h : withAffine o keys f = some c) :
    Legal c := by
  unfold withAffine at h
  split at h
  · exact hf _ _ _ _ _ h
  · cases h

/-- Whatever is read from a file is a camera with the parameters of its type, under the id it was
stored with. -/
theorem C46_read_legal (key : String) (o : J) (c : Cam) (h : cameraFromJson key o = some c) :
    Legal c ∧ c.id = key := by
  have key1 : ∀ pt c, cameraOfType o pt = some c → Legal c := by
    intro pt c hc
    unfold cameraOfType at hc
    split at hc
    · split at hc
      · cases hc; simp [Legal, layout, createPerspective]
      · cases hc
    split at hc
    · refine withAffine_legal ?_ hc
      intro a b pp d r hr
      unfold createBrown at hr
      split at hr
      · cases hr; simp [Legal, layout]
      · cases hr
    split at hc
    · split at hc
      · cases hc; simp [Legal, layout, createFisheye]
      · cases hc
    split at hc
    · refine withAffine_legal ?_ hc
      intro a b pp d r hr
      unfold createFisheyeOpencv at hr
      split at hr
      · cases hr; simp [Legal, layout]
      · cases hr
    split at hc
    · refine withAffine_legal ?_ hc
      intro a b pp d r hr
      unfold createFisheye62 at hr
      split at hr
      · cases hr; simp [Legal, layout]
      · cases hr
    split at hc
    · refine withAffine_legal ?_ hc
      intro a b pp d r hr
      unfold createFisheye624 at hr
      split at hr
      · cases hr; simp [Legal, layout]
      · cases hr
    split at hc
    · refine withAffine_legal ?_ hc
      intro a b pp d r hr
      split at hr
      · cases hr; simp [Legal, layout, createRadial]
      · cases hr
    split at hc
    · refine withAffine_legal ?_ hc
      intro a b pp d r hr
      split at hr
      · cases hr; simp [Legal, layout, createSimpleRadial]
      · cases hr
    split at hc
    · split at hc
      · cases hc; simp [Legal, layout, createDual]
      · cases hc
    split at hc
    · cases hc; simp [Legal, layout, createSpherical]
    · cases hc
  unfold cameraFromJson at h
  simp only at h
  split at h
  · cases h
  · split at h
    · rename_i c' w hh hc' _ _
      cases h
      exact ⟨key1 _ c' hc', rfl⟩
    · cases h

/-- Defaults: an object with only a focal length is a perspective camera without distortion of
size 0 × 0; missing distortion coefficients are 0, a missing transition 1/2. -/
theorem C46_defaults (key : String) (f : ℚ) :
    cameraFromJson key (.obj [("focal", .num f)]) =
      some { createPerspective f 0 0 with id := key, width := 0, height := 0 } ∧
    cameraFromJson key (.obj [("projection_type", .str "dual"), ("focal", .num f)]) =
      some { createDual (1 / 2) f 0 0 with id := key, width := 0, height := 0 } := by
  constructor <;>
    simp [cameraFromJson, J.get?, J.str?, J.reqNum, J.optNum, J.num?, Dict.get?, cameraOfType,
      createPerspective, createDual, pyInt]

/-- Writing and reading the whole camera dictionary of a dataset gives it back, in order. -/
theorem C46_cameras (cams : Dict String Cam) (hwf : cams.Wf)
    (hid : ∀ k c, (k, c) ∈ cams → c.id = k) (hl : ∀ k c, (k, c) ∈ cams → Legal c)
    (hu : ∀ k c, (k, c) ∈ cams → Usable c) :
    ∃ o, camerasToJson cams = some o ∧ camerasFromJson o = some cams := by
  have set_new : ∀ {V : Type} (m : Dict String V) (k : String) (v : V), k ∉ m.keys →
      m.set k v = m ++ [(k, v)] := by
    intro V m k v hk
    induction m with
    | nil => rfl
    | cons p m ih =>
      simp only [Dict.keys, List.map_cons, List.mem_cons, not_or] at hk
      simp only [Dict.set, if_neg (Ne.symm hk.1), List.cons_append]
      rw [ih hk.2]
  have main : ∀ (l : Dict String Cam), l.Wf → (∀ k c, (k, c) ∈ l → c.id = k) →
      (∀ k c, (k, c) ∈ l → Legal c) → (∀ k c, (k, c) ∈ l → Usable c) →
      ∀ (o : Dict String J) (m : Dict String Cam), o.keys = m.keys →
      (∀ k ∈ l.keys, k ∉ m.keys) →
      ∃ o', l.vals.foldl toJsonStep (some o) = some (o ++ o') ∧
        o'.foldl fromJsonStep (some m) = some (m ++ l) := by
    intro l
    induction l with
    | nil => intro _ _ _ _ o m _ _; exact ⟨[], by simp [Dict.vals], by simp⟩
    | cons p l ih =>
      intro hw h1 h2 h3 o m hkeys hnew
      obtain ⟨k, c⟩ := p
      simp only [Dict.Wf, Dict.keys, List.map_cons, List.nodup_cons] at hw
      have hck := h1 k c (by simp)
      obtain ⟨j, hj1, hj2⟩ := C46_roundtrip c (h2 k c (by simp)) (h3 k c (by simp))
      have hkm : k ∉ m.keys := hnew k (by simp [Dict.keys])
      obtain ⟨o', e1, e2⟩ := ih hw.2 (fun k' c' h => h1 k' c' (by simp [h]))
        (fun k' c' h => h2 k' c' (by simp [h])) (fun k' c' h => h3 k' c' (by simp [h]))
        (o ++ [(k, j)]) (m ++ [(k, c)]) (by simp only [Dict.keys, List.map_append] at hkeys ⊢; simp [hkeys])
        (by
          intro k' hk'
          simp only [Dict.keys, List.map_append, List.mem_append, not_or, List.map_cons,
            List.map_nil, List.mem_singleton]
          refine ⟨hnew k' (by simp only [Dict.keys, List.map_cons, List.mem_cons]; exact .inr hk'), ?_⟩
          rintro rfl
          exact hw.1 hk')
      refine ⟨(k, j) :: o', ?_, ?_⟩
      · simp only [Dict.vals, List.map_cons, List.foldl_cons]
        rw [show toJsonStep (some o) c = some (o.set k j) by simp only [toJsonStep, hj1, hck]]
        rw [set_new o k j (by rw [hkeys]; exact hkm)]
        have := e1
        simp only [Dict.vals] at this
        rw [this]; simp
      · simp only [List.foldl_cons]
        rw [hck] at hj2
        rw [show fromJsonStep (some m) (k, j) = some (m.set k c) by simp only [fromJsonStep, hj2]]
        rw [set_new m k c hkm, e2]; simp
  obtain ⟨o', e1, e2⟩ := main cams hwf hid hl hu [] [] rfl (by simp)
  exact ⟨o', by simpa [camerasToJson] using e1, by simpa [camerasFromJson] using e2⟩

/-! ## C47 -/

set_option maxHeartbeats 2000000 in
/-- The parameter vector of a camera determines it, for every projection type. -/
theorem C47_roundtrip (c : Cam) (hc : Legal c) (hu : Usable c) :
    ∃ v, cameraToVector c = some v ∧
      cameraFromVector c.id c.width c.height c.ptype.toString v = some c := by
  obtain ⟨pt, ts, vs, w, h, i⟩ := c
  obtain ⟨h1, h2, h3⟩ := hc
  simp only at h1 h2 h3
  subst h1
  cases pt <;> simp only [layout, List.length_cons, List.length_nil] at h2 <;> norm_num at h2
  · match vs, h2 with
    | [k1, k2, f], _ =>
      exact ⟨_, rfl, by simp [cameraFromVector, vectorOfType, PType.toString, createPerspective,
        layout]⟩
  · match vs, h2 with
    | [k1, k2, k3, p1, p2, f, a, x, y], _ =>
      have hf : f ≠ 0 := by simpa [Usable, layout, Cam.get, getValue] using hu
      exact ⟨_, rfl, by simp [cameraFromVector, vectorOfType, PType.toString, createBrown,
        layout, pyDiv, hf]⟩
  · match vs, h2 with
    | [k1, k2, f], _ =>
      exact ⟨_, rfl, by simp [cameraFromVector, vectorOfType, PType.toString, createFisheye,
        layout]⟩
  · match vs, h2 with
    | [k1, k2, k3, k4, f, a, x, y], _ =>
      have hf : f ≠ 0 := by simpa [Usable, layout, Cam.get, getValue] using hu
      exact ⟨_, rfl, by simp [cameraFromVector, vectorOfType, PType.toString,
        createFisheyeOpencv, layout, pyDiv, hf]⟩
  · match vs, h2 with
    | [k1, k2, k3, k4, k5, k6, p1, p2, f, a, x, y], _ =>
      have hf : f ≠ 0 := by simpa [Usable, layout, Cam.get, getValue] using hu
      exact ⟨_, rfl, by simp [cameraFromVector, vectorOfType, PType.toString,
        createFisheye62, layout, pyDiv, hf]⟩
  · match vs, h2 with
    | [k1, k2, k3, k4, k5, k6, p1, p2, s0, s1, s2, s3, f, a, x, y], _ =>
      have hf : f ≠ 0 := by simpa [Usable, layout, Cam.get, getValue] using hu
      exact ⟨_, rfl, by simp [cameraFromVector, vectorOfType, PType.toString,
        createFisheye624, layout, pyDiv, hf]⟩
  · match vs, h2 with
    | [t, k1, k2, f], _ =>
      exact ⟨_, rfl, by simp [cameraFromVector, vectorOfType, PType.toString, createDual,
        layout]⟩
  · have h3 := h3 rfl
    subst h3
    exact ⟨_, rfl, by simp [cameraFromVector, vectorOfType, PType.toString, createSpherical,
      isPanorama, layout]⟩
  · match vs, h2 with
    | [k1, k2, f, a, x, y], _ =>
      have hf : f ≠ 0 := by simpa [Usable, layout, Cam.get, getValue] using hu
      exact ⟨_, rfl, by simp [cameraFromVector, vectorOfType, PType.toString, createRadial,
        layout, pyDiv, hf]⟩
  · match vs, h2 with
    | [k1, f, a, x, y], _ =>
      have hf : f ≠ 0 := by simpa [Usable, layout, Cam.get, getValue] using hu
      exact ⟨_, rfl, by simp [cameraFromVector, vectorOfType, PType.toString,
        createSimpleRadial, layout, pyDiv, hf]⟩

/-- Number of entries of the vector of each type (the dummy parameter of a spherical camera is
not stored). -/
def vectorSize (t : PType) : ℕ := if t = .spherical then 0 else (layout t).length

/-- The vector has as many entries as the camera has parameters, and a vector of another length
is rejected for every type but the spherical one, which ignores its argument. -/
theorem C47_length (t : PType) (id : String) (w h : ℤ) (v : List ℚ) :
    (∀ c, Legal c → c.ptype = t → ∀ u, cameraToVector c = some u → u.length = vectorSize t) ∧
    (t ≠ .spherical → v.length ≠ vectorSize t → cameraFromVector id w h t.toString v = none) := by
  have hg : ∀ (c : Cam) ps u, gets c ps = some u → u.length = ps.length := by
    intro c ps
    induction ps with
    | nil => intro u hu; cases hu; rfl
    | cons p ps ih =>
      intro u hu
      simp only [gets] at hu
      split at hu
      · rename_i v r _ hr
        cases hu; simp [ih r hr]
      · cases hu
  have ha : ∀ (c : Cam) ps u, affineVector c ps = some u → u.length = ps.length + 4 := by
    intro c ps u hu
    unfold affineVector at hu
    split at hu
    · rename_i f a pp r _ _ _ hr
      cases hu; simp [hg c ps r hr]
    · cases hu
  refine ⟨?_, ?_⟩
  · intro c _ ht u hu
    subst ht
    unfold cameraToVector at hu
    cases hpt : c.ptype <;> rw [hpt] at hu <;> simp only at hu <;>
      first
        | (rw [hg _ _ _ hu]; rfl)
        | (rw [ha _ _ _ hu]; rfl)
        | (cases hu; rfl)
  · intro hs hv
    cases t <;> simp [vectorSize, layout] at hv hs <;>
      simp only [cameraFromVector, vectorOfType, PType.toString, Option.map_eq_none_iff] <;>
      simp <;> split <;> first | rfl | (simp at hv)

/-- Vectors of two usable cameras of one type and size are equal only if the cameras are. -/
theorem C47_injective (c c' : Cam) (hc : Legal c) (hc' : Legal c') (hu : Usable c)
    (hu' : Usable c') (hid : c.id = c'.id) (hw : c.width = c'.width) (hh : c.height = c'.height)
    (ht : c.ptype = c'.ptype) (hv : cameraToVector c = cameraToVector c') : c = c' := by
  obtain ⟨v, h1, h2⟩ := C47_roundtrip c hc hu
  obtain ⟨v', h1', h2'⟩ := C47_roundtrip c' hc' hu'
  rw [h1, h1'] at hv
  cases hv
  rw [hid, hw, hh, ht, h2'] at h2
  exact (Option.some.inj h2).symm

/-- A legal, usable Brown camera (all parameters non-trivial). -/
def sampleCam : Cam :=
  ⟨.brown, layout .brown, [1 / 10, -1 / 20, 1 / 100, 1 / 1000, -1 / 500, 4 / 5, 11 / 10, 1 / 50, -1 / 40],
    4000, 3000, "v2 cam"⟩

example : Legal sampleCam ∧ Usable sampleCam := by
  refine ⟨⟨rfl, rfl, by simp [sampleCam]⟩, ?_⟩
  intro _
  simp [sampleCam, Cam.get, getValue, layout]

example : cameraToVector sampleCam = some [4 / 5, 22 / 25, 1 / 50, -1 / 40, 1 / 10, -1 / 20,
    1 / 1000, -1 / 500, 1 / 100] := by
  decide +kernel

end Verif.CameraIO
