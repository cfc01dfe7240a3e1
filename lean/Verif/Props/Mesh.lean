import Verif.Model.Mesh
import Verif.Spec.Mesh
import Verif.Props.Pose
import Mathlib.Analysis.Convex.Hull
import Mathlib.Analysis.Convex.Segment
import Mathlib.Tactic.FieldSimp
import Mathlib.Tactic.Linarith
import Mathlib.Tactic.FinCases

/-!
# C131: meshes of the shots
-/
set_option linter.unusedSimpArgs false
set_option linter.unusedVariables false
set_option linter.unusedSectionVars false
namespace Verif.Mesh
open Verif.Pose Matrix
open Spec

/-! ### Which mesh -/

/-- **Every camera type has a mesh: planar projections the one in the frame, fisheye ones the one on a disc,
panoramas the one on a sphere; any other name raises.** -/
theorem C131_kind :
    (∀ p : Verif.CameraIO.PType, ∃ k, kindOf p.toString = some k ∧
      (k = .perspective ↔ p = .perspective ∨ p = .brown ∨ p = .radial ∨ p = .simpleRadial) ∧
      (k = .fisheye ↔ p = .fisheye ∨ p = .fisheyeOpencv ∨ p = .fisheye62 ∨ p = .fisheye624 ∨ p = .dual) ∧
      (k = .spherical ↔ p = .spherical)) ∧
    kindOf "equirectangular" = some .spherical ∧
    ∀ s, (∀ p : Verif.CameraIO.PType, s ≠ p.toString) → s ≠ "equirectangular" → kindOf s = none := by
  refine ⟨?_, by decide, ?_⟩
  · intro p
    cases p
    all_goals first
      | exact ⟨.perspective, by decide, by simp, by simp, by simp⟩
      | exact ⟨.fisheye, by decide, by simp, by simp, by simp⟩
      | exact ⟨.spherical, by decide, by simp, by simp, by simp⟩
  · intro s h he
    have h1 := h .perspective
    have h2 := h .brown
    have h3 := h .radial
    have h4 := h .simpleRadial
    have h5 := h .fisheye
    have h6 := h .fisheyeOpencv
    have h7 := h .fisheye62
    have h8 := h .fisheye624
    have h9 := h .dual
    have h10 := h .spherical
    simp only [Verif.CameraIO.PType.toString] at h1 h2 h3 h4 h5 h6 h7 h8 h9 h10
    unfold kindOf Verif.CameraIO.isPanorama
    rw [if_neg (by simp only [List.mem_cons, List.not_mem_nil, or_false, not_or]; exact ⟨h1, h2, h3, h4⟩),
      if_neg (by simp only [List.mem_cons, List.not_mem_nil, or_false, not_or]; exact ⟨h5, h6, h7, h8, h9⟩),
      if_neg]
    simp only [Bool.or_eq_true, beq_iff_eq, not_or]
    exact ⟨h10, he⟩

/-- **The mesh of a shot is the one of its projection type; a shot which is not in the reconstruction or not in
the tracks manager has an empty one.** -/
theorem C131_dispatch (del : List (ℝ × ℝ) → Option (List Face)) (hull : List (V3 ℝ) → Option (List Face))
    (s : Shot) (seen : List (V3 ℝ × Option (ℝ × ℝ))) (b : Bool) :
    triangleMesh del hull none b seen = some ([], []) ∧
    triangleMesh del hull (some s) false seen = some ([], []) ∧
    (kindOf s.projection = some .perspective →
      triangleMesh del hull (some s) true seen = perspective del s.k s.width s.height s.pose seen) ∧
    (kindOf s.projection = some .fisheye →
      triangleMesh del hull (some s) true seen = fisheye hull s.pose (seen.map Prod.fst)) ∧
    (kindOf s.projection = some .spherical →
      triangleMesh del hull (some s) true seen = spherical hull s.pose (seen.map Prod.fst)) ∧
    (kindOf s.projection = none → triangleMesh del hull (some s) true seen = none) := by
  refine ⟨by cases b <;> rfl, rfl, ?_, ?_, ?_, ?_⟩ <;> intro h <;> simp only [triangleMesh, h]

/-! ### The mesh of a planar projection -/

theorem inFrame_spec (w h : ℕ) (p : Option (ℝ × ℝ)) :
    (InFrame w h p → inFrame w h p = p) ∧ (¬ InFrame w h p → inFrame w h p = none) := by
  cases p with
  | none => exact ⟨fun _ => rfl, fun _ => rfl⟩
  | some p =>
    have e : ∀ a b : ℝ, a / 2 / b = a / (2 * b) := fun a b => by rw [div_div]
    have : InFrame w h (some p) ↔ (-(halfSize w h).1 ≤ p.1 ∧ p.1 ≤ (halfSize w h).1 ∧ -(halfSize w h).2 ≤ p.2 ∧
        p.2 ≤ (halfSize w h).2) := by
      unfold InFrame halfSize
      simp only [e, Nat.cast_max]
      constructor
      · rintro ⟨u, v, he, h1, h2⟩
        cases he
        exact ⟨(abs_le.1 h1).1, (abs_le.1 h1).2, (abs_le.1 h2).1, (abs_le.1 h2).2⟩
      · rintro ⟨h1, h2, h3, h4⟩
        exact ⟨p.1, p.2, rfl, abs_le.2 ⟨h1, h2⟩, abs_le.2 ⟨h3, h4⟩⟩
    constructor
    · intro hf; unfold inFrame; exact if_pos (this.1 hf)
    · intro hf; unfold inFrame; exact if_neg (fun hc => hf (this.2 hc))

open Classical in
theorem keep_spec (w h : ℕ) (seen : List (V3 ℝ × Option (ℝ × ℝ))) :
    (keep w h seen).map Prod.fst = (seen.filter fun x => decide (InFrame w h x.2)).map Prod.fst ∧
    (keep w h seen).map Prod.snd = (seen.filter fun x => decide (InFrame w h x.2)).filterMap Prod.snd := by
  induction seen with
  | nil => exact ⟨rfl, rfl⟩
  | cons x seen ih =>
    unfold keep at ih ⊢
    by_cases hf : InFrame w h x.2
    · have h1 := (inFrame_spec w h x.2).1 hf
      have hd : decide (InFrame w h x.2) = true := decide_eq_true hf
      obtain ⟨u, v, he, -⟩ := hf
      rw [List.filter_cons_of_pos (p := fun x : V3 ℝ × Option (ℝ × ℝ) => decide (InFrame w h x.2)) hd, List.filterMap_cons, h1, he]
      simp only [Option.map_some, List.map_cons, List.filterMap_cons, he]
      exact ⟨by rw [ih.1], by rw [ih.2]⟩
    · have h1 := (inFrame_spec w h x.2).2 hf
      have hd : ¬ decide (InFrame w h x.2) = true := by simpa using hf
      rw [List.filter_cons_of_neg (p := fun x : V3 ℝ × Option (ℝ × ℝ) => decide (InFrame w h x.2)) hd, List.filterMap_cons, h1]
      exact ih

/-- The corners of the frame. -/
theorem corners_eq (w h : ℕ) : corners w h =
    [(-((w : ℝ) / (2 * max w h)), -((h : ℝ) / (2 * max w h))), (-((w : ℝ) / (2 * max w h)), (h : ℝ) / (2 * max w h)),
     ((w : ℝ) / (2 * max w h), (h : ℝ) / (2 * max w h)), ((w : ℝ) / (2 * max w h), -((h : ℝ) / (2 * max w h)))] := by
  unfold corners halfSize
  simp only [div_div, Nat.cast_max]

theorem mapM_length {A B : Type} {f : A → Option B} {l : List A} {r : List B} (h : l.mapM f = some r) :
    r.length = l.length ∧ ∀ (i : ℕ) (a : A), l[i]? = some a → ∃ b, f a = some b ∧ r[i]? = some b := by
  induction l generalizing r with
  | nil => simp at h; subst h; simp
  | cons a l ih =>
    rw [List.mapM_cons] at h
    cases hf : f a with
    | none => rw [hf] at h; cases h
    | some b =>
      rw [hf] at h
      cases hl : l.mapM f with
      | none => rw [hl] at h; cases h
      | some r' =>
        rw [hl] at h
        cases h
        obtain ⟨h1, h2⟩ := ih hl
        refine ⟨by simp [h1], ?_⟩
        intro i x hx
        cases i with
        | zero => simp at hx; subst hx; exact ⟨b, hf, rfl⟩
        | succ i => simpa using h2 i x (by simpa using hx)

theorem perspective_some {del : List (ℝ × ℝ) → Option (List Face)} {k : Kmat} {w h : ℕ} {pose : Pose ℝ}
    {seen : List (V3 ℝ × Option (ℝ × ℝ))} {vs : List (V3 ℝ)} {fs : List Face}
    (hm : perspective del k w h pose seen = some (vs, fs)) :
    del (corners w h ++ (keep w h seen).map Prod.snd) = some fs ∧
    ∃ cs : List (V3 ℝ), vs = cs ++ (keep w h seen).map Prod.fst ∧
      ((corners w h).zipIdx).mapM (cornerVertex k pose ((keep w h seen).map Prod.fst) fs) = some cs := by
  unfold perspective at hm
  simp only at hm
  split at hm
  · cases hm
  · rename_i tri htri
    split at hm
    · cases hm
    · rename_i cs hcs
      cases hm
      exact ⟨htri, cs, rfl, hcs⟩

open Classical in
/-- **After four corners, the vertices are exactly the observed reconstructed points that project in the frame of
the image, in order and where they are; the faces are the Delaunay triangles of the corners of the frame and the
pixels of these points.** -/
theorem C131_perspective (del : List (ℝ × ℝ) → Option (List Face)) (k : Kmat) (w h : ℕ) (pose : Pose ℝ)
    (seen : List (V3 ℝ × Option (ℝ × ℝ))) (vs : List (V3 ℝ)) (fs : List Face)
    (hm : perspective del k w h pose seen = some (vs, fs)) :
    let kept := seen.filter fun x => decide (InFrame w h x.2)
    let dx : ℝ := w / (2 * max w h)
    let dy : ℝ := h / (2 * max w h)
    vs.length = 4 + kept.length ∧ vs.drop 4 = kept.map Prod.fst ∧
    del ([(-dx, -dy), (-dx, dy), (dx, dy), (dx, -dy)] ++ kept.filterMap Prod.snd) = some fs := by
  obtain ⟨h1, cs, h2, h3⟩ := perspective_some hm
  have hl := (mapM_length h3).1
  have h4 : cs.length = 4 := by rw [hl, corners_eq]; rfl
  obtain ⟨k1, k2⟩ := keep_spec w h seen
  refine ⟨?_, ?_, ?_⟩
  · rw [h2, List.length_append, h4, k1, List.length_map]
  · rw [h2, ← k1, List.drop_append_of_le_length (by omega), List.drop_of_length_le (by omega)]; rfl
  · rw [← h1, corners_eq, k2]

theorem sum_face (i : ℕ) (f : ℕ → ℝ) (t : Face) :
    (if i ∈ t.list then (t.list.filter (fun j => decide (4 ≤ j))).map f else []).sum = inFace i f t := by
  unfold inFace On Face.list
  by_cases h : i = t.1 ∨ i = t.2.1 ∨ i = t.2.2
  · rw [if_pos (by simpa using h), if_pos h]
    by_cases h1 : 4 ≤ t.1 <;> by_cases h2 : 4 ≤ t.2.1 <;> by_cases h3 : 4 ≤ t.2.2 <;>
      simp [h1, h2, h3, add_assoc]
  · rw [if_neg (by simpa using h), if_neg h]
    rfl

theorem sum_around (fs : List Face) (i : ℕ) (f : ℕ → ℝ) :
    (fs.flatMap fun t => if i ∈ t.list then (t.list.filter (fun j => decide (4 ≤ j))).map f else []).sum =
      around fs i f := by
  induction fs with
  | nil => rfl
  | cons t fs ih =>
    rw [List.flatMap_cons, List.sum_append, ih, sum_face]
    unfold around
    rw [List.map_cons, List.sum_cons]

theorem length_around (fs : List Face) (i : ℕ) (f : ℕ → ℝ) :
    ((fs.flatMap fun t => if i ∈ t.list then (t.list.filter (fun j => decide (4 ≤ j))).map f else []).length : ℝ) =
      around fs i (fun _ => 1) := by
  rw [← sum_around]
  induction fs with
  | nil => simp
  | cons t fs ih =>
    rw [List.flatMap_cons, List.flatMap_cons, List.length_append, List.sum_append, Nat.cast_add, ih]
    congr 1
    split
    · simp
    · simp

theorem around_congr {fs : List Face} {i : ℕ} {f g : ℕ → ℝ} (h : ∀ j, 4 ≤ j → f j = g j) :
    around fs i f = around fs i g := by
  unfold around
  congr 1
  refine List.map_congr_left fun t _ => ?_
  unfold inFace
  split
  · congr 1
    · congr 1
      · split
        · exact h _ ‹_›
        · rfl
      · split
        · exact h _ ‹_›
        · rfl
    · split
      · exact h _ ‹_›
      · rfl
  · rfl

theorem face_mono {i : ℕ} {f g : ℕ → ℝ} {t : Face} (h : ∀ j, 4 ≤ j → On i t → On j t → f j ≤ g j) :
    inFace i f t ≤ inFace i g t := by
  unfold inFace
  split
  · rename_i hi
    refine add_le_add (add_le_add ?_ ?_) ?_
    · split
      · exact h _ ‹_› hi (.inl rfl)
      · exact le_refl _
    · split
      · exact h _ ‹_› hi (.inr (.inl rfl))
      · exact le_refl _
    · split
      · exact h _ ‹_› hi (.inr (.inr rfl))
      · exact le_refl _
  · exact le_refl _

theorem around_mono {fs : List Face} {i : ℕ} {f g : ℕ → ℝ} (h : ∀ j, Adjacent fs i j → f j ≤ g j) :
    around fs i f ≤ around fs i g := by
  unfold around
  refine List.sum_le_sum fun t ht => face_mono fun j h4 hi hj => h j ⟨h4, t, ht, hi, hj⟩

theorem around_const (fs : List Face) (i : ℕ) (c : ℝ) : around fs i (fun _ => c) = c * around fs i (fun _ => 1) := by
  unfold around
  rw [← List.sum_map_mul_left]
  congr 1
  refine List.map_congr_left fun t _ => ?_
  unfold inFace
  split
  · split <;> split <;> split <;> ring
  · ring

theorem around_nonneg (fs : List Face) (i : ℕ) : 0 ≤ around fs i (fun _ => 1) := by
  have := around_mono (fs := fs) (i := i) (f := fun _ => 0) (g := fun _ => 1) (fun _ _ => zero_le_one)
  rwa [around_const, zero_mul] at this

theorem around_zero (fs : List Face) (i : ℕ) : around fs i (fun _ => 1) = 0 ↔ ¬ ∃ j, Adjacent fs i j := by
  constructor
  · rintro h0 ⟨j, h4, t, ht, hi, hj⟩
    have hnn : ∀ u : Face, 0 ≤ inFace i (fun _ => 1) u := by
      intro u
      have := face_mono (i := i) (t := u) (f := fun _ => 0) (g := fun _ => (1 : ℝ)) (fun _ _ _ _ => zero_le_one)
      refine le_trans (le_of_eq ?_) this
      unfold inFace; split <;> simp
    have h1 : inFace i (fun _ => 1) t = 0 := by
      have hle := List.single_le_sum (l := fs.map (inFace i fun _ => 1)) (by
        intro x hx
        obtain ⟨u, _, rfl⟩ := List.mem_map.1 hx
        exact hnn u) _ (List.mem_map.2 ⟨t, ht, rfl⟩)
      unfold around at h0
      rw [h0] at hle
      exact le_antisymm hle (hnn t)
    unfold inFace at h1
    rw [if_pos hi] at h1
    have p : ∀ n : ℕ, (0 : ℝ) ≤ if 4 ≤ n then 1 else 0 := fun n => by split <;> norm_num
    have p1 := p t.1
    have p2 := p t.2.1
    have p3 := p t.2.2
    rcases hj with rfl | rfl | rfl <;> rw [if_pos h4] at h1 <;> linarith
  · intro hn
    refine le_antisymm ?_ (around_nonneg fs i)
    have := around_mono (fs := fs) (i := i) (f := fun _ => 1) (g := fun _ => 0) (fun j hj => absurd ⟨j, hj⟩ hn)
    rwa [around_const fs i 0, zero_mul] at this

theorem backProject_some {k : Kmat} {pose : Pose ℝ} {c : ℝ × ℝ} {d : ℝ} {v : V3 ℝ} (hp : Rigid pose)
    (h : backProject k pose c d = some v) :
    k.fx ≠ 0 ∧ k.fy ≠ 0 ∧ pose.transform v 2 = d ∧
    k.fx * pose.transform v 0 + k.cx * d = c.1 * d ∧ k.fy * pose.transform v 1 + k.cy * d = c.2 * d := by
  unfold backProject at h
  split at h
  · cases h
  · rename_i hk
    rw [not_or] at hk
    cases h
    rw [hp.2.2]
    have h1 := hk.1
    have h2 := hk.2
    refine ⟨h1, h2, ?_, ?_, ?_⟩
    · simp
    · simp; field_simp; ring
    · simp; field_simp; ring

theorem corner_some {del : List (ℝ × ℝ) → Option (List Face)} {k : Kmat} {w h : ℕ} {pose : Pose ℝ} (hp : Rigid pose)
    {seen : List (V3 ℝ × Option (ℝ × ℝ))} {vs : List (V3 ℝ)} {fs : List Face}
    (hm : perspective del k w h pose seen = some (vs, fs)) (i : ℕ) (c : ℝ × ℝ) (hc : (corners w h)[i]? = some c) :
    ∃ v, vs[i]? = some v ∧ k.fx ≠ 0 ∧ k.fy ≠ 0 ∧
      k.fx * pose.transform v 0 + k.cx * pose.transform v 2 = c.1 * pose.transform v 2 ∧
      k.fy * pose.transform v 1 + k.cy * pose.transform v 2 = c.2 * pose.transform v 2 ∧
      (around fs i (fun _ => 1) = 0 → pose.transform v 2 = 50) ∧
      (around fs i (fun _ => 1) ≠ 0 → pose.transform v 2 * around fs i (fun _ => 1) =
        around fs i fun j => pose.transform (vs.getD j 0) 2) := by
  obtain ⟨h1, cs, h2, h3⟩ := perspective_some hm
  obtain ⟨hl, hg⟩ := mapM_length h3
  have h4 : cs.length = 4 := by rw [hl, corners_eq]; rfl
  obtain ⟨v, hv, hr⟩ := hg i (c, i) (by rw [List.getElem?_zipIdx, hc]; simp)
  obtain ⟨f1, f2, e1, e2, e3⟩ := backProject_some hp hv
  have hi : i < 4 := by
    have := List.getElem?_eq_some_iff.1 hr
    obtain ⟨hlt, _⟩ := this
    omega
  refine ⟨v, ?_, f1, f2, by rw [e1]; exact e2, by rw [e1]; exact e3, ?_, ?_⟩
  · rw [h2, List.getElem?_append_left (by omega)]; exact hr
  · intro h0
    rw [e1]
    unfold cornerDepth
    rw [if_neg]
    unfold cornerDepths
    have := length_around fs i (fun j => pose.transform (((keep w h seen).map Prod.fst).getD (j - 4) 0) 2)
    rw [h0] at this
    have := Nat.cast_eq_zero.1 this
    simp only [this]
    exact lt_irrefl 0
  · intro h0
    have hlen := length_around fs i (fun j => pose.transform (((keep w h seen).map Prod.fst).getD (j - 4) 0) 2)
    have hsum := sum_around fs i (fun j => pose.transform (((keep w h seen).map Prod.fst).getD (j - 4) 0) 2)
    rw [e1]
    show cornerDepth (cornerDepths pose ((keep w h seen).map Prod.fst) fs i) * _ = _
    unfold cornerDepth cornerDepths
    have hne : ((fs.flatMap fun t => if i ∈ t.list then (t.list.filter (fun j => decide (4 ≤ j))).map
      (fun j => pose.transform (((keep w h seen).map Prod.fst).getD (j - 4) 0) 2) else []).length : ℝ) ≠ 0 := by
      rw [hlen]; exact h0
    rw [if_pos (Nat.pos_of_ne_zero fun hz => hne (by rw [hz]; exact Nat.cast_zero)), hlen, hsum,
      div_mul_cancel₀ _ h0]
    refine around_congr fun j hj => ?_
    rw [h2, List.getD_eq_getElem?_getD, List.getD_eq_getElem?_getD, List.getElem?_append_right (by omega), h4]

/-- **Each corner vertex lies, through the camera matrix alone, on the corner of the frame, at the mean depth of the
points in a triangle with it, each counted once for every triangle, and at depth 50 when there are none.** -/
theorem C131_corner (del : List (ℝ × ℝ) → Option (List Face)) (k : Kmat) (w h : ℕ) (pose : Pose ℝ) (hp : Rigid pose)
    (seen : List (V3 ℝ × Option (ℝ × ℝ))) (vs : List (V3 ℝ)) (fs : List Face)
    (hm : perspective del k w h pose seen = some (vs, fs)) (i : ℕ) (c : ℝ × ℝ)
    (hc : let dx : ℝ := w / (2 * max w h)
          let dy : ℝ := h / (2 * max w h)
          [(-dx, -dy), (-dx, dy), (dx, dy), (dx, -dy)][i]? = some c) :
    k.fx ≠ 0 ∧ k.fy ≠ 0 ∧ ∃ v, vs[i]? = some v ∧
      k.fx * pose.transform v 0 + k.cx * pose.transform v 2 = c.1 * pose.transform v 2 ∧
      k.fy * pose.transform v 1 + k.cy * pose.transform v 2 = c.2 * pose.transform v 2 ∧
      ((¬ ∃ j, Adjacent fs i j) → pose.transform v 2 = 50) ∧
      ((∃ j, Adjacent fs i j) → pose.transform v 2 * around fs i (fun _ => 1) =
        around fs i fun j => pose.transform (vs.getD j 0) 2) := by
  obtain ⟨v, h1, h2, h3, h4, h5, h6, h7⟩ := corner_some hp hm i c (by rw [corners_eq]; exact hc)
  refine ⟨h2, h3, v, h1, h4, h5, fun hn => h6 ((around_zero fs i).2 hn), fun he => h7 fun h0 => ?_⟩
  exact (around_zero fs i).1 h0 he

/-- **The depth of a corner lies between the smallest and the largest depth of the points in a triangle with it**:
with all of them in front of the camera, so is the corner. -/
theorem C131_corner_bounds (del : List (ℝ × ℝ) → Option (List Face)) (k : Kmat) (w h : ℕ) (pose : Pose ℝ)
    (hp : Rigid pose) (seen : List (V3 ℝ × Option (ℝ × ℝ))) (vs : List (V3 ℝ)) (fs : List Face)
    (hm : perspective del k w h pose seen = some (vs, fs)) (i : ℕ) (hi : i < 4) (he : ∃ j, Adjacent fs i j)
    (lo hi' : ℝ) (hb : ∀ j, Adjacent fs i j →
      lo ≤ pose.transform (vs.getD j 0) 2 ∧ pose.transform (vs.getD j 0) 2 ≤ hi') :
    ∃ v, vs[i]? = some v ∧ lo ≤ pose.transform v 2 ∧ pose.transform v 2 ≤ hi' := by
  obtain ⟨c, hc⟩ : ∃ c, (corners w h)[i]? = some c := by
    refine ⟨(corners w h)[i]'(by rw [corners_eq]; exact hi), List.getElem?_eq_getElem _⟩
  obtain ⟨v, h1, -, -, -, -, -, h7⟩ := corner_some hp hm i c hc
  have hne : around fs i (fun _ => 1) ≠ 0 := fun h0 => (around_zero fs i).1 h0 he
  have hpos : 0 < around fs i (fun _ => 1) := lt_of_le_of_ne (around_nonneg fs i) (Ne.symm hne)
  have heq := h7 hne
  have hlo := around_mono (fs := fs) (i := i) (f := fun _ => lo) fun j hj => (hb j hj).1
  have hhi := around_mono (fs := fs) (i := i) (g := fun _ => hi') fun j hj => (hb j hj).2
  rw [around_const fs i lo, ← heq] at hlo
  rw [around_const fs i hi', ← heq] at hhi
  exact ⟨v, h1, le_of_mul_le_mul_right hlo hpos, le_of_mul_le_mul_right hhi hpos⟩

/-- **Nothing raises when the triangulation does not and the camera matrix is invertible**; a singular camera matrix
always raises. -/
theorem C131_total (del : List (ℝ × ℝ) → Option (List Face)) (k : Kmat) (w h : ℕ) (pose : Pose ℝ)
    (seen : List (V3 ℝ × Option (ℝ × ℝ))) :
    (k.fx ≠ 0 → k.fy ≠ 0 → (∀ l, del l ≠ none) → perspective del k w h pose seen ≠ none) ∧
    (k.fx = 0 ∨ k.fy = 0 → perspective del k w h pose seen = none) := by
  constructor
  · intro h1 h2 hd hn
    unfold perspective at hn
    simp only at hn
    split at hn
    · rename_i h0; exact hd _ h0
    · rename_i tri _
      rw [corners_eq] at hn
      simp [List.zipIdx, cornerVertex, backProject, h1, h2] at hn
  · intro hk
    unfold perspective
    simp only
    split
    · rfl
    · rw [corners_eq]
      have : ∀ (pts : List (V3 ℝ)) tri c, cornerVertex k pose pts tri c = none := by
        intro pts tri c
        unfold cornerVertex backProject
        exact if_pos hk
      simp [List.zipIdx, this]

/-- A fan of four triangles around the vertex 4. -/
def fan : List Face := [(0, 1, 4), (1, 2, 4), (2, 3, 4), (3, 0, 4)]

theorem fan_adjacent : Adjacent fan 0 4 := ⟨le_refl _, (0, 1, 4), by simp [fan], .inl rfl, .inr (.inr rfl)⟩

theorem fan_only {j : ℕ} (h : Adjacent fan 0 j) : j = 4 := by
  obtain ⟨h4, t, ht, -, hj⟩ := h
  simp only [fan, List.mem_cons, List.not_mem_nil, or_false] at ht
  rcases ht with rfl | rfl | rfl | rfl <;> rcases hj with rfl | rfl | rfl <;> first | rfl | (exact absurd h4 (by decide))

/-- **A point at any depth `z`, also behind the camera, that projects in the frame pulls the corners to its depth**:
with one such point in the middle of the image the first corner has depth `z`. -/
theorem C131_pulled (z : ℝ) :
    ∃ vs v, perspective (fun _ => some fan) ⟨1, 1, 0, 0⟩ 640 480 Pose.identity [(![0, 0, z], some (0, 0))] =
      some (vs, fan) ∧ vs[0]? = some v ∧ (Pose.identity : Pose ℝ).transform v 2 = z := by
  have hp : Rigid (Pose.identity : Pose ℝ) := (rigid_iff_cons _).2 cons_identity
  cases hm : perspective (fun _ => some fan) ⟨1, 1, 0, 0⟩ 640 480 Pose.identity [(![0, 0, z], some (0, 0))] with
  | none => exact absurd hm ((C131_total _ _ _ _ _ _).1 one_ne_zero one_ne_zero (by simp))
  | some r =>
    obtain ⟨vs, fs⟩ := r
    have hfs : fs = fan := by
      have := (perspective_some hm).1
      exact (Option.some.inj this).symm
    subst hfs
    have hin : InFrame 640 480 (some ((0 : ℝ), (0 : ℝ))) := ⟨0, 0, rfl, by norm_num, by norm_num⟩
    obtain ⟨h1, h2, -⟩ := C131_perspective _ _ _ _ _ _ _ _ hm
    have hd : vs.drop 4 = [![0, 0, z]] := by
      rw [h2]; simp [hin]
    have h4 : vs.getD 4 0 = ![0, 0, z] := by
      have : vs[4]? = (vs.drop 4)[0]? := by rw [List.getElem?_drop]
      rw [List.getD_eq_getElem?_getD, this, hd]; rfl
    have ht : (Pose.identity : Pose ℝ).transform (vs.getD 4 0) 2 = z := by
      rw [h4, (C39_actions _ _ hp hp).2.2.2]; rfl
    obtain ⟨v, hv, hl, hh⟩ := C131_corner_bounds _ _ _ _ _ hp _ _ _ hm 0 (by norm_num) ⟨4, fan_adjacent⟩ z z (by
      intro j hj
      rw [fan_only hj, ht]
      exact ⟨le_refl _, le_refl _⟩)
    exact ⟨vs, v, rfl, hv, le_antisymm hh hl⟩

/-! ### The meshes on bearings -/

theorem dot_pos {v : V3 ℝ} (h : v ≠ 0) : 0 < v ⬝ᵥ v := by
  have h0 : v ⬝ᵥ v = v 0 * v 0 + v 1 * v 1 + v 2 * v 2 := by
    simp [dotProduct, Fin.sum_univ_three]
  rw [h0]
  by_contra hc
  apply h
  have h1 : v 0 = 0 := by nlinarith [mul_self_nonneg (v 0), mul_self_nonneg (v 1), mul_self_nonneg (v 2)]
  have h2 : v 1 = 0 := by nlinarith [mul_self_nonneg (v 0), mul_self_nonneg (v 1), mul_self_nonneg (v 2)]
  have h3 : v 2 = 0 := by nlinarith [mul_self_nonneg (v 0), mul_self_nonneg (v 1), mul_self_nonneg (v 2)]
  ext i; fin_cases i <;> simpa

theorem norm3_pos {v : V3 ℝ} (h : v ≠ 0) : 0 < norm3 v := Real.sqrt_pos.2 (dot_pos h)

theorem unit_spec {v : V3 ℝ} (h : v ≠ 0) :
    v = norm3 v • ((1 / norm3 v) • v) ∧ ((1 / norm3 v) • v) ⬝ᵥ ((1 / norm3 v) • v) = 1 := by
  have hp := norm3_pos h
  constructor
  · rw [smul_smul, mul_one_div_cancel hp.ne', one_smul]
  · rw [smul_dotProduct, dotProduct_smul, smul_eq_mul, smul_eq_mul]
    have : norm3 v * norm3 v = v ⬝ᵥ v := Real.mul_self_sqrt (dot_pos h).le
    rw [← this]
    field_simp

theorem circle_dot (i : ℕ) : circlePoint i ⬝ᵥ circlePoint i = 900 := by
  unfold circlePoint
  simp [dotProduct, Fin.sum_univ_three]
  have := Real.sin_sq_add_cos_sq (2 * Real.pi * i / 20)
  nlinarith

theorem circle_ne (i : ℕ) : circlePoint i ≠ 0 := by
  intro h
  have := circle_dot i
  rw [h] at this
  simp at this

theorem norm_circle (i : ℕ) : norm3 (circlePoint i) = 30 := by
  unfold norm3
  rw [circle_dot, show (900 : ℝ) = 30 ^ 2 by norm_num, Real.sqrt_sq (by norm_num)]

theorem norm_front : norm3 frontPoint = 30 := by
  unfold norm3 frontPoint
  rw [show (((30 : ℝ) • ![0, 0, 1] : V3 ℝ) ⬝ᵥ ((30 : ℝ) • ![0, 0, 1])) = 30 ^ 2 by
    simp [dotProduct, Fin.sum_univ_three]; norm_num]
  exact Real.sqrt_sq (by norm_num)

theorem points_spec {pose : Pose ℝ} {points : List (V3 ℝ)} {v b : V3 ℝ}
    (h : (v, b) ∈ points.filterMap (pointVertex pose)) :
    v ∈ points ∧ pose.transform v ≠ 0 ∧ b = (1 / norm3 (pose.transform v)) • pose.transform v := by
  obtain ⟨x, hx, he⟩ := List.mem_filterMap.1 h
  unfold pointVertex at he
  simp only at he
  split at he
  · cases he
  · rename_i hd
    cases he
    exact ⟨hx, hd, rfl⟩

open Classical in
theorem points_fst (pose : Pose ℝ) (points : List (V3 ℝ)) :
    (points.filterMap (pointVertex pose)).map Prod.fst = points.filter fun x => decide (pose.transform x ≠ 0) := by
  induction points with
  | nil => rfl
  | cons x points ih =>
    rw [List.filterMap_cons]
    unfold pointVertex
    by_cases h : pose.transform x = 0
    · simp only [h, if_true]
      rw [List.filter_cons_of_neg (by simpa using h)]
      exact ih
    · simp only [h, if_false]
      rw [List.filter_cons_of_pos (by simpa using h), List.map_cons]
      exact congrArg _ ih

open Classical in
/-- **The vertices of the fisheye mesh: twenty at distance 30 in the plane of the camera, evenly around it, one at
distance 30 in front, then the observed points, without those at the camera centre.** -/
theorem C131_fisheye (hull : List (V3 ℝ) → Option (List Face)) (pose : Pose ℝ) (hp : Rigid pose)
    (points : List (V3 ℝ)) (vs : List (V3 ℝ)) (fs : List Face) (hm : fisheye hull pose points = some (vs, fs)) :
    (∀ i : ℕ, i < 20 → ∃ v, vs[i]? = some v ∧ pose.transform v =
      ![30 * Real.cos (2 * Real.pi * i / 20), 30 * Real.sin (2 * Real.pi * i / 20), 0]) ∧
    (∃ v, vs[20]? = some v ∧ pose.transform v = ![0, 0, 30]) ∧
    vs.drop 21 = points.filter fun x => decide (pose.transform x ≠ 0) := by
  unfold fisheye at hm
  simp only at hm
  cases hh : hull ((fisheyeInput pose points).map Prod.snd) with
  | none => rw [hh] at hm; cases hm
  | some faces =>
    rw [hh] at hm
    cases hm
    have hl : ((List.range 20).map (circleVertex pose)).length = 20 := by simp
    refine ⟨?_, ?_, ?_⟩
    · intro i hi
      refine ⟨pose.transformInverse (circlePoint i), ?_, ?_⟩
      · unfold fisheyeInput
        rw [List.getElem?_map, List.getElem?_append_left (by rw [hl]; exact hi), List.getElem?_map,
          List.getElem?_range hi]
        rfl
      · rw [hp.2.2]
        unfold circlePoint
        ext j; fin_cases j <;> simp
    · refine ⟨pose.transformInverse frontPoint, ?_, ?_⟩
      · unfold fisheyeInput
        rw [List.getElem?_map, List.getElem?_append_right (by rw [hl]), hl]
        rfl
      · rw [hp.2.2]
        unfold frontPoint
        ext j; fin_cases j <;> simp
    · unfold fisheyeInput
      rw [← List.map_drop, List.drop_append, hl, List.drop_of_length_le (by rw [hl]; omega)]
      exact points_fst pose points

/-- **Every vertex lies along the bearing that is triangulated for it.** Bearings of the points and of the circle are
unit vectors; the one in front has length 0.3, inside the hull of the others or in front of it. The faces are
those of the hull which have a vertex that is not on the circle. -/
theorem C131_fisheye_faces (hull : List (V3 ℝ) → Option (List Face)) (pose : Pose ℝ) (hp : Rigid pose)
    (points : List (V3 ℝ)) (vs : List (V3 ℝ)) (fs : List Face) (hm : fisheye hull pose points = some (vs, fs)) :
    ∃ bs faces, hull bs = some faces ∧ bs.length = vs.length ∧
      (∀ i v b, vs[i]? = some v → bs[i]? = some b →
        (∃ r : ℝ, 0 < r ∧ pose.transform v = r • b) ∧ (i ≠ 20 → b ⬝ᵥ b = 1) ∧ (i = 20 → b = ![0, 0, 3 / 10])) ∧
      fs.Sublist faces ∧ ∀ f : ℕ × ℕ × ℕ, f ∈ fs ↔ f ∈ faces ∧ ¬ (f.1 < 20 ∧ f.2.1 < 20 ∧ f.2.2 < 20) := by
  unfold fisheye at hm
  simp only at hm
  cases hh : hull ((fisheyeInput pose points).map Prod.snd) with
  | none => rw [hh] at hm; cases hm
  | some faces =>
    rw [hh] at hm
    cases hm
    refine ⟨_, faces, hh, by simp, ?_, List.filter_sublist, ?_⟩
    · intro i v b hv hb
      rw [List.getElem?_map] at hv hb
      obtain ⟨p, hp1, rfl⟩ := Option.map_eq_some_iff.1 hv
      rw [hp1] at hb
      cases hb
      have hl : ((List.range 20).map (circleVertex pose)).length = 20 := by simp
      unfold fisheyeInput at hp1
      rcases Nat.lt_trichotomy i 20 with hi | hi | hi
      · rw [List.getElem?_append_left (by rw [hl]; exact hi), List.getElem?_map, List.getElem?_range hi] at hp1
        cases hp1
        have := unit_spec (circle_ne i)
        refine ⟨⟨norm3 (circlePoint i), norm3_pos (circle_ne i), ?_⟩, fun _ => this.2, fun h => by omega⟩
        show pose.transform (pose.transformInverse (circlePoint i)) = _
        rw [hp.2.2]
        exact this.1
      · subst hi
        rw [List.getElem?_append_right (by rw [hl]), hl] at hp1
        cases hp1
        refine ⟨⟨100, by norm_num, ?_⟩, fun h => absurd rfl h, fun _ => ?_⟩
        · show pose.transform (pose.transformInverse frontPoint) = (100 : ℝ) • ((3 / 10 / norm3 frontPoint) • frontPoint)
          rw [hp.2.2, norm_front, smul_smul]
          norm_num
        · show (3 / 10 / norm3 frontPoint) • frontPoint = _
          rw [norm_front]
          unfold frontPoint
          ext j; fin_cases j <;> norm_num
      · rw [List.getElem?_append_right (by rw [hl]; omega), hl] at hp1
        obtain ⟨n, hn⟩ : ∃ n, i - 20 = n + 1 := ⟨i - 21, by omega⟩
        rw [hn, List.getElem?_cons_succ] at hp1
        obtain ⟨h1, h2, h3⟩ := points_spec (v := p.1) (b := p.2) (List.mem_of_getElem? hp1)
        have := unit_spec h2
        rw [h3]
        exact ⟨⟨_, norm3_pos h2, this.1⟩, fun _ => this.2, fun h => by omega⟩
    · intro f
      rw [List.mem_filter]
      refine and_congr_right fun _ => ?_
      unfold goodFace
      rw [decide_eq_true_iff]
      omega

theorem norm_cube {c : V3 ℝ} (h : c ∈ cube) : norm3 c = Real.sqrt 3 := by
  unfold norm3
  congr 1
  unfold cube at h
  simp only [List.mem_cons, List.not_mem_nil, or_false] at h
  rcases h with rfl | rfl | rfl | rfl | rfl | rfl | rfl | rfl <;> simp [dotProduct, Fin.sum_univ_three] <;> norm_num

open Classical in
/-- **The spherical mesh: eight vertices around the camera at distance 0.3 in the directions of the corners of a
cube, then the observed points, without those at the camera centre; every vertex lies along the bearing that is
triangulated for it; all faces of the hull are kept.** -/
theorem C131_spherical (hull : List (V3 ℝ) → Option (List Face)) (pose : Pose ℝ) (hp : Rigid pose)
    (points : List (V3 ℝ)) (vs : List (V3 ℝ)) (fs : List Face) (hm : spherical hull pose points = some (vs, fs)) :
    vs.drop 8 = (points.filter fun x => decide (pose.transform x ≠ 0)) ∧
    ∃ bs, hull bs = some fs ∧ bs.length = vs.length ∧
      (∀ i v b, vs[i]? = some v → bs[i]? = some b →
        (∃ r : ℝ, 0 < r ∧ pose.transform v = r • b) ∧ (8 ≤ i → b ⬝ᵥ b = 1) ∧
        (i < 8 → pose.transform v = b ∧ ∀ j, |b j| = 3 / 10 / Real.sqrt 3)) ∧
      ∀ x y z : ℝ, |x| = 3 / 10 / Real.sqrt 3 → |y| = 3 / 10 / Real.sqrt 3 → |z| = 3 / 10 / Real.sqrt 3 →
        ![x, y, z] ∈ bs := by
  unfold spherical at hm
  simp only at hm
  cases hh : hull ((sphericalInput pose points).map Prod.snd) with
  | none => rw [hh] at hm; cases hm
  | some faces =>
    rw [hh] at hm
    cases hm
    have hl : (cube.map (cubeVertex pose)).length = 8 := by simp [cube]
    have h3 : (0 : ℝ) < Real.sqrt 3 := Real.sqrt_pos.2 (by norm_num)
    have hr : (0 : ℝ) < 3 / 10 / Real.sqrt 3 := by positivity
    refine ⟨?_, _, hh, by simp, ?_, ?_⟩
    · unfold sphericalInput
      rw [← List.map_drop, List.drop_append, hl, List.drop_of_length_le (by rw [hl])]
      exact points_fst pose points
    · intro i v b hv hb
      rw [List.getElem?_map] at hv hb
      obtain ⟨p, hp1, rfl⟩ := Option.map_eq_some_iff.1 hv
      rw [hp1] at hb
      cases hb
      unfold sphericalInput at hp1
      rcases Nat.lt_or_ge i 8 with hi | hi
      · rw [List.getElem?_append_left (by rw [hl]; exact hi), List.getElem?_map] at hp1
        obtain ⟨c, hc, rfl⟩ := Option.map_eq_some_iff.1 hp1
        have hcm := List.mem_of_getElem? hc
        have ht : pose.transform (cubeVertex pose c).1 = (cubeVertex pose c).2 := by
          show pose.transform (pose.transformInverse _) = _
          rw [hp.2.2]; rfl
        refine ⟨⟨1, one_pos, by rw [ht, one_smul]⟩, fun h => by omega, fun _ => ⟨ht, ?_⟩⟩
        intro j
        show |((3 / 10 / norm3 c) • c) j| = _
        rw [norm_cube hcm, Pi.smul_apply, smul_eq_mul, abs_mul, abs_of_pos hr]
        have : |c j| = 1 := by
          unfold cube at hcm
          simp only [List.mem_cons, List.not_mem_nil, or_false] at hcm
          rcases hcm with rfl | rfl | rfl | rfl | rfl | rfl | rfl | rfl <;> fin_cases j <;> simp
        rw [this, mul_one]
      · rw [List.getElem?_append_right (by rw [hl]; exact hi), hl] at hp1
        obtain ⟨h1, h2, h4⟩ := points_spec (v := p.1) (b := p.2) (List.mem_of_getElem? hp1)
        have := unit_spec h2
        rw [h4]
        exact ⟨⟨_, norm3_pos h2, this.1⟩, fun _ => this.2, fun h => by omega⟩
    · intro x y z hx hy hz
      have key : ∀ c ∈ cube, (3 / 10 / Real.sqrt 3) • c ∈ (sphericalInput pose points).map Prod.snd := by
        intro c hc
        refine List.mem_map.2 ⟨cubeVertex pose c, ?_, ?_⟩
        · unfold sphericalInput
          exact List.mem_append_left _ (List.mem_map.2 ⟨c, hc, rfl⟩)
        · show (3 / 10 / norm3 c) • c = _
          rw [norm_cube hc]
      have sgn : ∀ u : ℝ, |u| = 3 / 10 / Real.sqrt 3 → u = 3 / 10 / Real.sqrt 3 * 1 ∨ u = 3 / 10 / Real.sqrt 3 * -1 := by
        intro u hu
        rcases abs_choice u with h | h
        · left; rw [mul_one, ← hu, h]
        · right; rw [← hu, h]; ring
      rcases sgn x hx with hx | hx <;> rcases sgn y hy with hy | hy <;> rcases sgn z hz with hz | hz <;>
        rw [hx, hy, hz]
      · simpa using key ![1, 1, 1] (by simp [cube])
      · simpa using key ![1, 1, -1] (by simp [cube])
      · simpa using key ![1, -1, 1] (by simp [cube])
      · simpa using key ![1, -1, -1] (by simp [cube])
      · simpa using key ![-1, 1, 1] (by simp [cube])
      · simpa using key ![-1, 1, -1] (by simp [cube])
      · simpa using key ![-1, -1, 1] (by simp [cube])
      · simpa using key ![-1, -1, -1] (by simp [cube])

/-- **The camera is well inside the hull that is triangulated**: every bearing with coordinates of size at most
`0.3 / √3` is a convex combination of the bearings of the mesh, whatever the points. -/
theorem C131_inside (hull : List (V3 ℝ) → Option (List Face)) (pose : Pose ℝ) (hp : Rigid pose)
    (points : List (V3 ℝ)) (vs : List (V3 ℝ)) (fs : List Face) (hm : spherical hull pose points = some (vs, fs)) :
    ∃ bs, hull bs = some fs ∧
      ∀ x : V3 ℝ, (∀ j, |x j| ≤ 3 / 10 / Real.sqrt 3) → x ∈ convexHull ℝ {b | b ∈ bs} := by
  obtain ⟨-, bs, hb, -, -, hc⟩ := C131_spherical hull pose hp points vs fs hm
  refine ⟨bs, hb, ?_⟩
  have h3 : (0 : ℝ) < Real.sqrt 3 := Real.sqrt_pos.2 (by norm_num)
  obtain ⟨a, ha⟩ : ∃ a : ℝ, a = 3 / 10 / Real.sqrt 3 := ⟨_, rfl⟩
  rw [← ha] at hc ⊢
  have hr : 0 < a := by rw [ha]; positivity
  have hcv := convex_convexHull ℝ {b : V3 ℝ | b ∈ bs}
  have mix : ∀ (p q : V3 ℝ) (u : ℝ), |u| ≤ a → p ∈ convexHull ℝ {b : V3 ℝ | b ∈ bs} →
      q ∈ convexHull ℝ {b : V3 ℝ | b ∈ bs} →
      ((1 + u / a) / 2) • p + ((1 - u / a) / 2) • q ∈ convexHull ℝ {b : V3 ℝ | b ∈ bs} := by
    intro p q u hu hpm hqm
    have hu1 := abs_le.1 hu
    have b1 : -1 ≤ u / a := by rw [le_div_iff₀ hr]; linarith [hu1.1]
    have b2 : u / a ≤ 1 := by rw [div_le_iff₀ hr]; linarith [hu1.2]
    exact hcv hpm hqm (by linarith) (by linarith) (by ring)
  have aa : |a| = a := abs_of_pos hr
  have an : |-a| = a := by rw [abs_neg, aa]
  have lvl0 : ∀ y z w : ℝ, |y| = a → |z| = a → |w| = a → ![y, z, w] ∈ convexHull ℝ {b : V3 ℝ | b ∈ bs} :=
    fun y z w h1 h2 h3 => subset_convexHull ℝ _ (hc y z w h1 h2 h3)
  have e : ∀ u : ℝ, (1 + u / a) / 2 * a + (1 - u / a) / 2 * -a = u := by
    intro u; field_simp; ring
  have e' : ∀ u y : ℝ, (1 + u / a) / 2 * y + (1 - u / a) / 2 * y = y := by
    intro u y; ring
  have lvl1 : ∀ x y z : ℝ, |x| ≤ a → |y| = a → |z| = a → ![x, y, z] ∈ convexHull ℝ {b : V3 ℝ | b ∈ bs} := by
    intro x y z h1 h2 h3
    have := mix _ _ x h1 (lvl0 a y z aa h2 h3) (lvl0 (-a) y z an h2 h3)
    convert this using 1
    ext j; fin_cases j
    · exact (e x).symm
    · exact (e' x y).symm
    · exact (e' x z).symm
  have lvl2 : ∀ x y z : ℝ, |x| ≤ a → |y| ≤ a → |z| = a → ![x, y, z] ∈ convexHull ℝ {b : V3 ℝ | b ∈ bs} := by
    intro x y z h1 h2 h3
    have := mix _ _ y h2 (lvl1 x a z h1 aa h3) (lvl1 x (-a) z h1 an h3)
    convert this using 1
    ext j; fin_cases j
    · exact (e' y x).symm
    · exact (e y).symm
    · exact (e' y z).symm
  intro x hx
  have := mix _ _ (x 2) (hx 2) (lvl2 (x 0) (x 1) a (hx 0) (hx 1) aa) (lvl2 (x 0) (x 1) (-a) (hx 0) (hx 1) an)
  convert this using 1
  ext j; fin_cases j
  · exact (e' (x 2) (x 0)).symm
  · exact (e' (x 2) (x 1)).symm
  · exact (e (x 2)).symm

example : ∃ vs fs, spherical (fun _ => some [(0, 1, 2)]) Pose.identity [![1, 2, 3]] = some (vs, fs) := ⟨_, _, rfl⟩

example : ∃ vs, fisheye (fun _ => some [(0, 1, 2), (0, 1, 20)]) Pose.identity [![1, 2, 3]] = some (vs, [(0, 1, 20)]) :=
  ⟨_, rfl⟩

end Verif.Mesh
