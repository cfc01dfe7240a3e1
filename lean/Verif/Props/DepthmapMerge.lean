import Verif.Model.DepthmapMerge
import Verif.Props.Depthmap
import Mathlib.Logic.Relation
import Mathlib.Data.Fintype.Prod
import Mathlib.Data.Fintype.Sigma
import Mathlib.Data.Finset.Max
import Mathlib.Data.Int.Interval

/-!
# C81: cleaning and pruning of depthmaps
-/
set_option linter.unusedSectionVars false
set_option linter.unusedSimpArgs false
namespace Verif.DepthmapMerge
open Matrix Verif.Depthmap

/-! ### Specification -/

/-- A view agrees with a point: the point is in front of it and the depth it has at the pixel of the point differs from
that of the point by less than the threshold, relatively. -/
def Agrees (threshold : ℝ) (x : V3) (o : CView) : Prop :=
  1 / 100000000 ≤ o.view.local' x 2 ∧
  |interpolate o.depth (o.view.pixel x).2 (o.view.pixel x).1 - o.view.local' x 2| < threshold * o.view.local' x 2

/-- C81. The point of a pixel, in the cleaner and in the pruner, is the point that its view sees at that column and row
and at the depth of the pixel. -/
theorem C81_point (view : View) (hK : IsCamera view.K) (hR : IsRotation view.R) (depth : Img) (i j : ℤ)
    (c : CView) (hc : c = ⟨view, depth⟩) (v : PView) (hv : v.view = view ∧ v.depth = depth) :
    c.point i j = v.point i j ∧ view.local' (v.point i j) 2 = depth.at' i j ∧
    (depth.at' i j ≠ 0 → view.pixel (v.point i j) = ((j : ℝ), (i : ℝ))) := by
  obtain ⟨h1, h2, h3⟩ := C79_backproject view hK hR
  have e : v.point i j = backproject j i (depth.at' i j) view := by rw [← hv.1, ← hv.2]; rfl
  refine ⟨by rw [e, hc]; rfl, ?_, ?_⟩
  · rw [e, ← (h3 _).1, h1]; rfl
  · intro hd
    rw [e]
    exact h2 _ _ _ hd

/-- C81. The number by which the pruner compares pixels is the focal length over the depth times the cosine of the
angle between the normal and the direction towards the camera, whatever the length of the normal. -/
theorem C81_resolution (v : PView) (i j : ℤ) (n : V3) (hn : n = v.plane i j) (h0 : n ≠ 0) :
    v.area i j = v.view.K 0 0 / v.depth.at' i j * (n ⬝ᵥ ![0, 0, -1] / Real.sqrt (n ⬝ᵥ n)) := by
  have hs : Real.sqrt (n 0 ^ 2 + n 1 ^ 2 + n 2 ^ 2) ≠ 0 := by
    intro h
    rw [Real.sqrt_eq_zero (by positivity)] at h
    apply h0
    funext k
    have a0 := sq_nonneg (n 0); have a1 := sq_nonneg (n 1); have a2 := sq_nonneg (n 2)
    fin_cases k
    · exact pow_eq_zero_iff two_ne_zero |>.1 (by linarith : n 0 ^ 2 = 0)
    · exact pow_eq_zero_iff two_ne_zero |>.1 (by linarith : n 1 ^ 2 = 0)
    · exact pow_eq_zero_iff two_ne_zero |>.1 (by linarith : n 2 ^ 2 = 0)
  have e1 : n ⬝ᵥ n = n 0 ^ 2 + n 1 ^ 2 + n 2 ^ 2 := by
    simp only [dotProduct, Fin.sum_univ_three]; ring
  have e2 : n ⬝ᵥ ![0, 0, -1] = -n 2 := by
    simp [dotProduct, Fin.sum_univ_three]
  rw [e1, e2]
  unfold PView.area normalize
  rw [← hn]
  simp only [if_neg hs, Pi.smul_apply, smul_eq_mul]
  ring

open Classical in
/-- C81. Cleaning keeps the depth of a pixel, unchanged, exactly if its view and the other views that agree with its
point are at least as many as required, and otherwise sets it to zero. A view without depth at the pixel of the point
does not agree. -/
theorem C81_clean (threshold : ℝ) (minViews : ℤ) (first : CView) (others : List CView)
    (hK : ∀ o ∈ others, IsCamera o.view.K) (i j : ℤ) (n : ℕ)
    (hn : n = others.countP (fun o => decide (Agrees threshold (first.point i j) o))) :
    (minViews ≤ 1 + n → clean threshold minViews first others i j = first.depth.at' i j) ∧
    (1 + n < minViews → clean threshold minViews first others i j = 0) ∧
    (threshold ≤ 1 → ∀ o ∈ others, interpolate o.depth (o.view.pixel (first.point i j)).2
      (o.view.pixel (first.point i j)).1 = 0 → ¬Agrees threshold (first.point i j) o) := by
  have hag : ∀ o ∈ others, consistent threshold (first.point i j) o ↔ Agrees threshold (first.point i j) o := by
    intro o ho
    have h2 : project o.view (first.point i j) 2 = o.view.local' (first.point i j) 2 := K_apply_two (hK o ho) _
    unfold consistent Agrees View.pixel
    simp only
    rw [h2, not_lt, mul_comm threshold]
    exact Iff.rfl
  have hc : consistentViews threshold first others i j = 1 + n := by
    unfold consistentViews
    rw [hn]
    clear hn
    have : ∀ (l : List CView) (m : ℕ), (∀ o ∈ l, o ∈ others) →
        l.foldl (fun n o => if consistent threshold (first.point i j) o then n + 1 else n) m =
        m + l.countP (fun o => decide (Agrees threshold (first.point i j) o)) := by
      intro l
      induction l with
      | nil => intro m _; rfl
      | cons o l ih =>
        intro m hl
        rw [List.foldl_cons, ih _ (fun x hx => hl x (List.mem_cons_of_mem _ hx)), List.countP_cons]
        have := hag o (hl o (List.mem_cons_self ..))
        by_cases hA : Agrees threshold (first.point i j) o
        · rw [if_pos (this.2 hA), if_pos (decide_eq_true hA)]; omega
        · rw [if_neg (fun h => hA (this.1 h)), if_neg (by simp [hA])]; omega
    exact this others 1 (fun _ h => h)
  unfold clean
  rw [hc]
  push_cast
  refine ⟨fun h => if_pos h, fun h => if_neg (by omega), ?_⟩
  intro ht o _ hz hA
  obtain ⟨h1, h2⟩ := hA
  rw [hz, zero_sub, abs_neg, abs_of_pos (lt_of_lt_of_le (by norm_num) h1)] at h2
  have hpos : 0 < o.view.local' (first.point i j) 2 := lt_of_lt_of_le (by norm_num) h1
  nlinarith

/-- C81. More views, in whatever order, and a smaller number of required views never remove a depth; with at most one
required view everything stays. -/
theorem C81_clean_monotone (threshold : ℝ) (m m' : ℤ) (hm : m' ≤ m) (first : CView) (others more : List CView)
    (hsub : others.Sublist more ∨ others.Perm more) (hK : ∀ o ∈ more, IsCamera o.view.K) (i j : ℤ) :
    (clean threshold m first others i j ≠ 0 →
      clean threshold m' first more i j = clean threshold m first others i j) ∧
    (m ≤ 1 → clean threshold m first others i j = first.depth.at' i j) := by
  classical
  have hmem : ∀ o ∈ others, o ∈ more := by
    intro o ho
    rcases hsub with h | h
    · exact h.subset ho
    · exact h.subset ho
  have hle : others.countP (fun o => decide (Agrees threshold (first.point i j) o)) ≤
      more.countP (fun o => decide (Agrees threshold (first.point i j) o)) := by
    rcases hsub with h | h
    · exact h.countP_le
    · exact (h.countP_eq _).le
  have a := C81_clean threshold m first others (fun o ho => hK o (hmem o ho)) i j _ rfl
  have b := C81_clean threshold m' first more hK i j _ rfl
  constructor
  · intro h
    by_cases hc : m ≤ 1 + (others.countP (fun o => decide (Agrees threshold (first.point i j) o)) : ℕ)
    · rw [a.1 hc]
      exact b.1 (by omega)
    · exact absurd (a.2.1 (by omega)) h
  · intro h
    exact a.1 (by omega)

/-! ### Pruner -/

/-- `b` sees the point of pixel `p` of `a` in its pixel `q`, and has a greater resolution there: the point is not
clearly behind what `b` sees there, which has a depth. -/
structure Better (threshold : ℝ) (a : PView) (p : ℤ × ℤ) (b : PView) (q : ℤ × ℤ) : Prop where
  front : 1 / 100000000 ≤ b.view.local' (a.point p.1 p.2) 2
  row : q.1 = pixelOf (b.view.pixel (a.point p.1 p.2)).2
  col : q.2 = pixelOf (b.view.pixel (a.point p.1 p.2)).1
  inside : b.depth.inside q.1 q.2
  depth : (1 - threshold) * b.view.local' (a.point p.1 p.2) 2 < b.depth.at' q.1 q.2
  area : a.area p.1 p.2 < b.area q.1 q.2

theorem drops_iff (threshold : ℝ) (ht : threshold ≤ 1) (a o : PView) (hK : IsCamera o.view.K) (i j : ℤ) :
    drops threshold (a.area i j) (a.point i j) o ↔ ∃ q, Better threshold a (i, j) o q := by
  have h2 : project o.view (a.point i j) 2 = o.view.local' (a.point i j) 2 := K_apply_two hK _
  have hr : o.row (a.point i j) = pixelOf (o.view.pixel (a.point i j)).2 := rfl
  have hc : o.col (a.point i j) = pixelOf (o.view.pixel (a.point i j)).1 := rfl
  constructor
  · rintro ⟨h3, h4, h5, h6⟩
    rw [not_lt] at h3
    rw [h2] at h3 h5
    have hpos : 0 < o.view.local' (a.point i j) 2 := lt_of_lt_of_le (by norm_num [zEps]) h3
    have hne : o.depth.at' (o.row (a.point i j)) (o.col (a.point i j)) ≠ 0 := by
      intro hz
      rw [hz] at h5
      nlinarith
    exact ⟨(o.row (a.point i j), o.col (a.point i j)), h3, hr, hc, h4, h5, h6.resolve_left hne⟩
  · rintro ⟨q, h⟩
    have e1 : o.row (a.point i j) = q.1 := by rw [hr, h.row]
    have e2 : o.col (a.point i j) = q.2 := by rw [hc, h.col]
    refine ⟨?_, ?_, ?_, ?_⟩
    · rw [h2, not_lt]; exact h.front
    · rw [e1, e2]; exact h.inside
    · rw [e1, e2, h2]; exact h.depth
    · rw [e1, e2]; exact Or.inr h.area

/-- The value of a pixel in the four vectors. -/
noncomputable def PView.pointValues (v : PView) (p : ℤ × ℤ) : List ℝ :=
  [v.point p.1 p.2 0, v.point p.1 p.2 1, v.point p.1 p.2 2]
noncomputable def PView.normalValues (v : PView) (p : ℤ × ℤ) : List ℝ :=
  [(v.view.Rᵀ *ᵥ normalize (v.plane p.1 p.2)) 0, (v.view.Rᵀ *ᵥ normalize (v.plane p.1 p.2)) 1,
    (v.view.Rᵀ *ᵥ normalize (v.plane p.1 p.2)) 2]
def PView.colorValues (v : PView) (p : ℤ × ℤ) : List ℕ :=
  [(v.color p.1 p.2).1, (v.color p.1 p.2).2.1, (v.color p.1 p.2).2.2]

/-- Row-major order. -/
def before (p q : ℤ × ℤ) : Prop := p.1 < q.1 ∨ (p.1 = q.1 ∧ p.2 < q.2)

theorem mem_allPixels (im : Img) (p : ℤ × ℤ) : p ∈ allPixels im ↔ im.inside p.1 p.2 := by
  unfold allPixels Img.inside
  rw [List.mem_flatMap]
  constructor
  · rintro ⟨i, hi, hp⟩
    obtain ⟨j, hj, rfl⟩ := List.mem_map.1 hp
    rw [List.mem_range] at hi hj
    simp only
    omega
  · rintro ⟨h1, h2, h3, h4⟩
    refine ⟨p.1.toNat, by rw [List.mem_range]; omega, List.mem_map.2 ⟨p.2.toNat, by rw [List.mem_range]; omega, ?_⟩⟩
    refine Prod.ext ?_ ?_
    · show (p.1.toNat : ℤ) = p.1; omega
    · show (p.2.toNat : ℤ) = p.2; omega

theorem allPixels_sorted (im : Img) : (allPixels im).Pairwise before := by
  unfold allPixels
  rw [List.pairwise_flatMap]
  constructor
  · intro i _
    rw [List.pairwise_map]
    exact List.pairwise_lt_range.imp (fun h => Or.inr ⟨rfl, by simpa using h⟩)
  · refine List.pairwise_lt_range.imp ?_
    intro i i' h p hp q hq
    obtain ⟨j, -, rfl⟩ := List.mem_map.1 hp
    obtain ⟨j', -, rfl⟩ := List.mem_map.1 hq
    exact Or.inl (by simpa using h)

/-- C81. Pruning gives, row by row, the pixels with a positive depth for which no other view is better, and for each of
them its point, its normal in world coordinates, its colour and its label, so that the four vectors describe the same
points in the same order. -/
theorem C81_prune (threshold : ℝ) (ht : threshold ≤ 1) (first : PView) (others : List PView)
    (hK : ∀ o ∈ others, IsCamera o.view.K) :
    ∃ kept : List (ℤ × ℤ), kept.Pairwise before ∧
      (∀ p, p ∈ kept ↔ first.depth.inside p.1 p.2 ∧ 0 < first.depth.at' p.1 p.2 ∧
        ¬∃ o ∈ others, ∃ q, Better threshold first p o q) ∧
      (prune threshold first others).points = kept.flatMap first.pointValues ∧
      (prune threshold first others).normals = kept.flatMap first.normalValues ∧
      (prune threshold first others).colors = kept.flatMap first.colorValues ∧
      (prune threshold first others).labels = kept.map (fun p => first.label p.1 p.2) := by
  classical
  refine ⟨(allPixels first.depth).filter (fun p => decide (keeps threshold first others p.1 p.2)), ?_, ?_, ?_⟩
  · exact (allPixels_sorted _).filter _
  · intro p
    rw [List.mem_filter, mem_allPixels, decide_eq_true_eq]
    unfold keeps
    rw [not_le]
    constructor
    · rintro ⟨h1, h2, h3⟩
      refine ⟨h1, h2, ?_⟩
      rintro ⟨o, ho, hq⟩
      exact h3 o ho ((drops_iff threshold ht first o (hK o ho) p.1 p.2).2 hq)
    · rintro ⟨h1, h2, h3⟩
      refine ⟨h1, h2, fun o ho hd => h3 ⟨o, ho, ?_⟩⟩
      exact (drops_iff threshold ht first o (hK o ho) p.1 p.2).1 hd
  · have : ∀ (l : List (ℤ × ℤ)) (c : Cloud), l.foldl (pruneStep threshold first others) c =
        ⟨c.points ++ (l.filter (fun p => decide (keeps threshold first others p.1 p.2))).flatMap first.pointValues,
         c.normals ++ (l.filter (fun p => decide (keeps threshold first others p.1 p.2))).flatMap first.normalValues,
         c.colors ++ (l.filter (fun p => decide (keeps threshold first others p.1 p.2))).flatMap first.colorValues,
         c.labels ++ (l.filter (fun p => decide (keeps threshold first others p.1 p.2))).map
           (fun p => first.label p.1 p.2)⟩ := by
      intro l
      induction l with
      | nil => intro c; simp
      | cons p l ih =>
        intro c
        rw [List.foldl_cons, ih]
        unfold pruneStep
        by_cases hk : keeps threshold first others p.1 p.2
        · have hf : List.filter (fun p => decide (keeps threshold first others p.1 p.2)) (p :: l) =
              p :: List.filter (fun p => decide (keeps threshold first others p.1 p.2)) l :=
            List.filter_cons_of_pos (by simpa using hk)
          rw [if_pos hk, hf]
          simp only [List.flatMap_cons, List.map_cons, List.append_assoc, List.singleton_append]
          rfl
        · have hf : List.filter (fun p => decide (keeps threshold first others p.1 p.2)) (p :: l) =
              List.filter (fun p => decide (keeps threshold first others p.1 p.2)) l :=
            List.filter_cons_of_neg (by simpa using hk)
          rw [if_neg hk, hf]
    unfold prune
    rw [this]
    simp

/-- C81. Merging loses no surface: take the pruned clouds of all views, each pruned with neighbors of its own among
them. From every pixel with a depth there is a chain of better and better pixels, each the one in which the point of the
one before is seen by a neighbor of that view, that ends with a pixel that is in the cloud of its view. -/
theorem C81_covered (threshold : ℝ) (ht : threshold ≤ 1) {n : ℕ} (views : Fin n → PView) (neighbors : Fin n → List (Fin n))
    (v : Fin n) (p : ℤ × ℤ) (hp : (views v).depth.inside p.1 p.2)
    (hd : 0 < (views v).depth.at' p.1 p.2) :
    ∃ w q, Relation.ReflTransGen (fun a b : Fin n × (ℤ × ℤ) => b.1 ∈ neighbors a.1 ∧
        Better threshold (views a.1) a.2 (views b.1) b.2) (v, p) (w, q) ∧
      (views w).depth.inside q.1 q.2 ∧ 0 < (views w).depth.at' q.1 q.2 ∧
      ¬∃ o ∈ (neighbors w).map views, ∃ q', Better threshold (views w) q o q' := by
  classical
  set S : Finset (Fin n × (ℤ × ℤ)) := Finset.univ.biUnion (fun v : Fin n =>
    ((allPixels (views v).depth).toFinset.image (fun p => (v, p)))) with hS
  have memS : ∀ a : Fin n × (ℤ × ℤ), a ∈ S ↔ (views a.1).depth.inside a.2.1 a.2.2 := by
    intro a
    rw [hS, Finset.mem_biUnion]
    constructor
    · rintro ⟨v, -, hv⟩
      obtain ⟨p, hp, rfl⟩ := Finset.mem_image.1 hv
      rw [List.mem_toFinset, mem_allPixels] at hp
      exact hp
    · intro h
      exact ⟨a.1, Finset.mem_univ _, Finset.mem_image.2 ⟨a.2, List.mem_toFinset.2 ((mem_allPixels _ _).2 h), rfl⟩⟩
  set R := (fun a b : Fin n × (ℤ × ℤ) => b.1 ∈ neighbors a.1 ∧ Better threshold (views a.1) a.2 (views b.1) b.2) with hR
  -- among the pixels reachable, one with the greatest area
  set T : Finset (Fin n × (ℤ × ℤ)) := S.filter (fun a => Relation.ReflTransGen R (v, p) a ∧
    0 < (views a.1).depth.at' a.2.1 a.2.2) with hT
  have hne : T.Nonempty := ⟨(v, p), by
    rw [hT, Finset.mem_filter]
    exact ⟨(memS (v, p)).2 hp, Relation.ReflTransGen.refl, hd⟩⟩
  obtain ⟨a, haT, hmax⟩ := T.exists_max_image (fun a => (views a.1).area a.2.1 a.2.2) hne
  rw [hT, Finset.mem_filter] at haT
  obtain ⟨haS, hreach, hpos⟩ := haT
  refine ⟨a.1, a.2, hreach, (memS a).1 haS, hpos, ?_⟩
  rintro ⟨o, ho, q, hq⟩
  obtain ⟨b, hb, rfl⟩ := List.mem_map.1 ho
  have hbT : (b, q) ∈ T := by
    rw [hT, Finset.mem_filter]
    refine ⟨(memS (b, q)).2 hq.inside, hreach.tail ⟨hb, hq⟩, ?_⟩
    refine lt_of_le_of_lt ?_ hq.depth
    have : 0 < (views b).view.local' ((views a.1).point a.2.1 a.2.2) 2 := lt_of_lt_of_le (by norm_num) hq.front
    exact mul_nonneg (by linarith) this.le
  have h1 := hmax (b, q) hbT
  have h2 : (views a.1).area a.2.1 a.2.2 < (views b).area q.1 q.2 := hq.area
  simp only at h1
  linarith

/-- C81. The pixel in which a point is looked up is the nearest one, if the point is in the image or outside by half a
pixel at most; but a point to the left of the image or above it is looked up in the first column or row up to one and a
half pixels outside, and a point very far outside may be looked up in any pixel. -/
theorem C81_rounding :
    (∀ u : ℝ, -1 / 2 ≤ u → u < 2 ^ 31 - 1 → |(pixelOf u : ℝ) - u| ≤ 1 / 2 ∧ 0 ≤ pixelOf u) ∧
    (∀ u : ℝ, -3 / 2 < u → u < 1 / 2 → pixelOf u = 0) ∧
    (∀ (k : ℕ) (u : ℝ), 0 ≤ u → u < 2 ^ 31 - 1 → pixelOf (u + k * 2 ^ 32) = pixelOf u) := by
  have hn : ∀ x : ℤ, 0 ≤ x → x < 2 ^ 31 → narrow x = x := by
    intro x h1 h2
    unfold narrow
    norm_num at h2 ⊢
    omega
  refine ⟨?_, ?_, ?_⟩
  · intro u h1 h2
    have hnn : ¬(u + 1 / 2 < 0) := by rw [not_lt]; linarith
    have e : toInt64 (u + 1 / 2) = ⌊u + 1 / 2⌋ := by unfold toInt64; rw [if_neg hnn]
    have f0 : 0 ≤ ⌊u + 1 / 2⌋ := Int.floor_nonneg.2 (by linarith)
    have f1 : ⌊u + 1 / 2⌋ < 2 ^ 31 := by
      rw [Int.floor_lt]
      push_cast
      linarith
    unfold pixelOf
    rw [e, hn _ f0 f1]
    refine ⟨?_, f0⟩
    have g0 := Int.floor_le (u + 1 / 2)
    have g1 := Int.lt_floor_add_one (u + 1 / 2)
    rw [abs_le]
    constructor <;> linarith
  · intro u h1 h2
    have e : toInt64 (u + 1 / 2) = 0 := by
      unfold toInt64
      split_ifs with h
      · rw [Int.ceil_eq_iff]; push_cast; constructor <;> linarith
      · rw [Int.floor_eq_iff]; push_cast; constructor <;> linarith
    unfold pixelOf
    rw [e]
    exact hn 0 (le_refl _) (by norm_num)
  · intro k u h1 h2
    have e : toInt64 (u + k * 2 ^ 32 + 1 / 2) = toInt64 (u + 1 / 2) + k * 2 ^ 32 := by
      unfold toInt64
      rw [if_neg, if_neg]
      · rw [← Int.floor_add_intCast]
        congr 1
        push_cast
        ring
      · rw [not_lt]; linarith
      · rw [not_lt]
        have : (0 : ℝ) ≤ k * 2 ^ 32 := by positivity
        linarith
    unfold pixelOf
    rw [e]
    unfold narrow
    rw [show toInt64 (u + 1 / 2) + k * 2 ^ 32 + 2 ^ 31 = toInt64 (u + 1 / 2) + 2 ^ 31 + 2 ^ 32 * k by ring,
      Int.add_mul_emod_self_left]

/-! ### A case in which the hypotheses hold -/

/-- Two views in the same place, the second with twice the resolution, that see a plane at depth 2. -/
noncomputable def exFar : PView :=
  ⟨⟨scaledK 1 4 4, 1, ![0, 0, 0]⟩, ⟨4, 4, fun _ _ => 2⟩, fun _ _ => ![0, 0, -1 / 2], fun _ _ => (1, 2, 3), fun _ _ => 0⟩
noncomputable def exNear : PView :=
  ⟨⟨scaledK 1 8 8, 1, ![0, 0, 0]⟩, ⟨8, 8, fun _ _ => 2⟩, fun _ _ => ![0, 0, -1 / 2], fun _ _ => (1, 2, 3), fun _ _ => 0⟩

theorem normalize_ex : normalize (![0, 0, -1 / 2] : V3) 2 = -1 := by
  unfold normalize
  have h : Real.sqrt ((![0, 0, -1 / 2] : V3) 0 ^ 2 + (![0, 0, -1 / 2] : V3) 1 ^ 2 + (![0, 0, -1 / 2] : V3) 2 ^ 2) = 1 / 2 := by
    have : (![0, 0, -1 / 2] : V3) 0 ^ 2 + (![0, 0, -1 / 2] : V3) 1 ^ 2 + (![0, 0, -1 / 2] : V3) 2 ^ 2 = (1 / 2) ^ 2 := by
      show (0 : ℝ) ^ 2 + 0 ^ 2 + (-1 / 2) ^ 2 = (1 / 2) ^ 2
      norm_num
    rw [this, Real.sqrt_sq (by norm_num)]
  rw [h]
  show (if (1 / 2 : ℝ) = 0 then 0 else (1 / (1 / 2 : ℝ)) • (![0, 0, -1 / 2] : V3)) 2 = -1
  rw [if_neg (by norm_num)]
  show 1 / (1 / 2) * (-1 / 2 : ℝ) = -1
  norm_num

/-- The second view is better at the pixel in which it sees the point of a pixel of the first one, so that the pixel of
the first one is not kept. -/
example : IsCamera exNear.view.K ∧ exFar.depth.inside 1 3 ∧ 0 < exFar.depth.at' 1 3 ∧
    Better (1 / 100) exFar (1, 3) exNear (2, 6) := by
  have cF := (C79_camera_matrix 1 4 4 one_ne_zero (by norm_num) 1 ![0, 0, 0]).1
  have cN := C79_camera_matrix 1 8 8 one_ne_zero (by norm_num) 1 ![0, 0, 0]
  have hloc : ∀ x, exNear.view.local' x = x := by
    intro x
    unfold View.local' exNear
    simp only [Matrix.one_mulVec]
    funext k; fin_cases k <;> simp
  have hlocF : ∀ x, exFar.view.local' x = x := by
    intro x
    unfold View.local' exFar
    simp only [Matrix.one_mulVec]
    funext k; fin_cases k <;> simp
  have hR : IsRotation exFar.view.R := by unfold IsRotation exFar; simp
  have hb := C79_backproject exFar.view cF hR
  set x := exFar.point 1 3 with hx
  have hx' : x = backproject 3 1 2 exFar.view := by
    rw [hx]
    unfold PView.point
    norm_num [exFar]
  have hproj := hb.1 3 1 2
  rw [← hx'] at hproj
  have x2 : x 2 = 2 := by
    have h1 := (hb.2.2 x).1
    rw [hproj, hlocF] at h1
    exact h1.symm
  have hpix := hb.2.1 3 1 2 two_ne_zero
  rw [← hx'] at hpix
  have eF := (C79_camera_matrix 1 4 4 one_ne_zero (by norm_num) 1 ![0, 0, 0]).2 x (by
    rw [show (⟨scaledK 1 4 4, 1, ![0, 0, 0]⟩ : View) = exFar.view from rfl, hlocF, x2]; norm_num)
  rw [show (⟨scaledK 1 4 4, 1, ![0, 0, 0]⟩ : View) = exFar.view from rfl, hlocF, hpix, x2] at eF
  have x0 : x 0 = 1 / 2 := by
    have := congrArg Prod.fst eF
    norm_num at this
    linarith
  have x1 : x 1 = -1 / 2 := by
    have := congrArg Prod.snd eF
    norm_num at this
    linarith
  have eN := cN.2 x (by
    rw [show (⟨scaledK 1 8 8, 1, ![0, 0, 0]⟩ : View) = exNear.view from rfl, hloc, x2]; norm_num)
  rw [show (⟨scaledK 1 8 8, 1, ![0, 0, 0]⟩ : View) = exNear.view from rfl, hloc, x0, x1, x2] at eN
  have p1 : (exNear.view.pixel x).1 = 6 := by rw [eN]; norm_num
  have p2 : (exNear.view.pixel x).2 = 2 := by rw [eN]; norm_num
  have r6 : pixelOf (6 : ℝ) = 6 := by
    have := C81_rounding.1 6 (by norm_num) (by norm_num)
    rw [abs_le] at this
    have h1 : ((pixelOf 6 : ℤ) : ℝ) < 7 := by linarith [this.1.2]
    have h2 : (5 : ℝ) < ((pixelOf 6 : ℤ) : ℝ) := by linarith [this.1.1]
    have h1' : pixelOf 6 < 7 := by exact_mod_cast h1
    have h2' : 5 < pixelOf 6 := by exact_mod_cast h2
    omega
  have r2 : pixelOf (2 : ℝ) = 2 := by
    have := C81_rounding.1 2 (by norm_num) (by norm_num)
    rw [abs_le] at this
    have h1 : ((pixelOf 2 : ℤ) : ℝ) < 3 := by linarith [this.1.2]
    have h2 : (1 : ℝ) < ((pixelOf 2 : ℤ) : ℝ) := by linarith [this.1.1]
    have h1' : pixelOf 2 < 3 := by exact_mod_cast h1
    have h2' : 1 < pixelOf 2 := by exact_mod_cast h2
    omega
  have hareaF : exFar.area 1 3 = 2 := by
    unfold PView.area
    rw [show exFar.plane 1 3 = ![0, 0, -1 / 2] from rfl, normalize_ex]
    show - -1 / 2 * (1 * ((max 4 4 : ℕ) : ℝ)) = 2
    norm_num
  have hareaN : exNear.area 2 6 = 4 := by
    unfold PView.area
    rw [show exNear.plane 2 6 = ![0, 0, -1 / 2] from rfl, normalize_ex]
    show - -1 / 2 * (1 * ((max 8 8 : ℕ) : ℝ)) = 4
    norm_num
  refine ⟨cN.1, ⟨by decide, by decide, by decide, by decide⟩, two_pos, ?_⟩
  refine ⟨?_, ?_, ?_, ⟨by decide, by decide, by decide, by decide⟩, ?_, ?_⟩
  · show 1 / 100000000 ≤ exNear.view.local' x 2
    rw [hloc, x2]; norm_num
  · show 2 = pixelOf (exNear.view.pixel x).2
    rw [p2, r2]
  · show 6 = pixelOf (exNear.view.pixel x).1
    rw [p1, r6]
  · show (1 - 1 / 100) * exNear.view.local' x 2 < (2 : ℝ)
    rw [hloc, x2]; norm_num
  · show exFar.area 1 3 < exNear.area 2 6
    rw [hareaF, hareaN]; norm_num

end Verif.DepthmapMerge
