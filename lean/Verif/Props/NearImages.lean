import Verif.Model.NearImages
import Verif.Spec.NearImages
import Verif.Lemmas.PairsSelection
import Verif.Props.Angles
import Mathlib.Analysis.InnerProductSpace.Projection.Minimal
import Mathlib.Analysis.InnerProductSpace.PiL2
import Mathlib.Data.List.Sort

/-!
C107: which images are matched because they are near.
-/
set_option linter.unusedSectionVars false
set_option linter.unusedSimpArgs false
namespace Verif.NearImages
open Verif.Superimpose Verif.PairsSelection
open Verif.Geo (radians)
variable {Id : Type} [LinearOrder Id]

/-- The distance of two points. -/
noncomputable def apart (p q : Vec 3) : ℝ := AlignPrior.norm (p - q)

/-! ### Neighbours -/

theorem nearest_rows {d : ℕ → ℝ} {n k : ℕ} {below : ℝ → Prop} {js : List ℕ} (h : Nearest d n below k js) {i : ℕ} (hi : i < n)
    (hb : below (d i)) (hn : i ∉ js) : js.Nodup ∧ js.length = k ∧ ∀ j ∈ js, j < n ∧ d j ≤ d i := by
  have hc := h.complete i hi hb hn
  refine ⟨?_, h.length, hc⟩
  have := h.nodup
  rwa [List.filter_eq_self.2 (fun j hj => by simpa using (hc j hj).1)] at this

/-- Candidates that push out a candidate: the rows answered are `N` other candidates at most as far. -/
theorem pushed_out {cand : List Id} (hc : cand.Nodup) {r : Id} {d : ℕ → ℝ} {below : ℝ → Prop} {N k : ℕ} (hk : k = min cand.length N)
    {n : ℕ} {js : List ℕ} (h : Nearest d n below (if r ∈ cand then k + 1 else k) js) (hn : cand.length ≤ n)
    (hrow : ∀ j ∈ js, j < n → j < cand.length) {i : ℕ} {c : Id} (hi : cand[i]? = some c) (hb : below (d i)) (hrc : r ≠ c)
    (hnot : i ∉ js) :
    ∃ near : List ℕ, near.Nodup ∧ near.length = N ∧ ∀ j ∈ near, ∃ x, cand[j]? = some x ∧ x ≠ r ∧ x ≠ c ∧ d j ≤ d i := by
  obtain ⟨hil, hie⟩ := List.getElem?_eq_some_iff.1 hi
  obtain ⟨hnd, hlen, hall⟩ := nearest_rows h (lt_of_lt_of_le hil hn) hb hnot
  have hlt : ∀ j ∈ js, j < cand.length := fun j hj => hrow j hj (hall j hj).1
  have hle : js.length + 1 ≤ cand.length := by
    have hnd2 : (i :: js).Nodup := List.nodup_cons.2 ⟨hnot, hnd⟩
    have hsub : (i :: js) ⊆ List.range cand.length := by
      intro j hj
      rcases List.mem_cons.1 hj with rfl | hj
      · exact List.mem_range.2 hil
      · exact List.mem_range.2 (hlt j hj)
    have := (List.subperm_of_subset hnd2 hsub).length_le
    simpa using this
  have other : ∀ j ∈ js, ∃ x, cand[j]? = some x ∧ x ≠ c ∧ d j ≤ d i := by
    intro j hj
    refine ⟨cand[j]'(hlt j hj), List.getElem?_eq_getElem (hlt j hj), ?_, (hall j hj).2⟩
    intro e
    apply hnot
    have : i = j := (List.Nodup.getElem_inj_iff hc).1 (hie.trans e.symm)
    rwa [this]
  by_cases hr : r ∈ cand
  · rw [if_pos hr] at hlen
    have hkN : k = N := by omega
    obtain ⟨q, hq, hqe⟩ := List.getElem_of_mem hr
    refine ⟨(js.erase q).take N, (hnd.erase q).sublist (List.take_sublist _ _), ?_, ?_⟩
    · rw [List.length_take]
      have : js.length - 1 ≤ (js.erase q).length := by rw [List.length_erase]; split <;> omega
      omega
    · intro j hj
      have hj' := List.mem_of_mem_take hj
      have hjq : j ≠ q := ((List.Nodup.mem_erase_iff hnd).1 hj').1
      have hjs : j ∈ js := ((List.Nodup.mem_erase_iff hnd).1 hj').2
      obtain ⟨x, h1, h2, h3⟩ := other j hjs
      refine ⟨x, h1, ?_, h2, h3⟩
      intro e
      subst e
      obtain ⟨hj2, hje⟩ := List.getElem?_eq_some_iff.1 h1
      exact hjq ((List.Nodup.getElem_inj_iff hc).1 (hje.trans hqe.symm))
  · rw [if_neg hr] at hlen
    have hkN : k = N := by omega
    refine ⟨js, hnd, by omega, ?_⟩
    intro j hj
    obtain ⟨x, h1, h2, h3⟩ := other j hj
    refine ⟨x, h1, ?_, h2, h3⟩
    intro e
    subst e
    exact hr (List.mem_of_getElem? h1)

theorem to_images {cand : List Id} (hc : cand.Nodup) {near : List ℕ} (hn : near.Nodup) {P : Id → ℕ → Prop}
    (h : ∀ j ∈ near, ∃ x, cand[j]? = some x ∧ P x j) :
    ∃ l : List Id, l.Nodup ∧ l.length = near.length ∧ ∀ x ∈ l, ∃ j, cand[j]? = some x ∧ P x j := by
  induction near with
  | nil => exact ⟨[], List.nodup_nil, rfl, by simp⟩
  | cons j near ih =>
    obtain ⟨hj, hn'⟩ := List.nodup_cons.1 hn
    obtain ⟨l, h1, h2, h3⟩ : ∃ l : List Id, l.Nodup ∧ l.length = near.length ∧ ∀ x ∈ l, ∃ j ∈ near, cand[j]? = some x ∧ P x j := by
      clear ih
      induction near with
      | nil => exact ⟨[], List.nodup_nil, rfl, by simp⟩
      | cons q near ih2 =>
        obtain ⟨hq, hn''⟩ := List.nodup_cons.1 hn'
        obtain ⟨l, h1, h2, h3⟩ := ih2 (List.nodup_cons.2 ⟨fun e => hj (List.mem_cons_of_mem _ e), hn''⟩)
          (fun j' hj' => by
            rcases List.mem_cons.1 hj' with rfl | hj'
            · exact h _ List.mem_cons_self
            · exact h _ (List.mem_cons_of_mem _ (List.mem_cons_of_mem _ hj')))
          (fun e => hj (List.mem_cons_of_mem _ e)) hn''
        obtain ⟨x, hx1, hx2⟩ := h q (List.mem_cons_of_mem _ List.mem_cons_self)
        refine ⟨x :: l, List.nodup_cons.2 ⟨?_, h1⟩, by simp [h2], ?_⟩
        · intro hx
          obtain ⟨j', hj', hj2, -⟩ := h3 x hx
          obtain ⟨a1, a2⟩ := List.getElem?_eq_some_iff.1 hx1
          obtain ⟨b1, b2⟩ := List.getElem?_eq_some_iff.1 hj2
          have : q = j' := (List.Nodup.getElem_inj_iff hc).1 (a2.trans b2.symm)
          exact hq (this ▸ hj')
        · intro y hy
          rcases List.mem_cons.1 hy with rfl | hy
          · exact ⟨q, List.mem_cons_self, hx1, hx2⟩
          · obtain ⟨j', e1, e2⟩ := h3 y hy
            exact ⟨j', List.mem_cons_of_mem _ e1, e2⟩
    obtain ⟨x, hx1, hx2⟩ := h j List.mem_cons_self
    refine ⟨x :: l, List.nodup_cons.2 ⟨?_, h1⟩, by simp [h2], ?_⟩
    · intro hx
      obtain ⟨j', hj', hj2, -⟩ := h3 x hx
      obtain ⟨a1, a2⟩ := List.getElem?_eq_some_iff.1 hx1
      obtain ⟨b1, b2⟩ := List.getElem?_eq_some_iff.1 hj2
      have : j = j' := (List.Nodup.getElem_inj_iff hc).1 (a2.trans b2.symm)
      exact hj (this ▸ hj')
    · intro y hy
      rcases List.mem_cons.1 hy with rfl | hy
      · exact ⟨j, hx1, hx2⟩
      · obtain ⟨j', -, e2⟩ := h3 y hy
        exact ⟨j', e2⟩

/-- By time: an image that was not chosen although another image looks for it has been pushed out by as many others as were asked
for, none of them further in time. -/
theorem C107_time (tree : (ℕ → ℝ) → ℕ → ℝ → ℕ → List ℕ)
    (htree : ∀ rows n x k, Nearest (fun j => |rows j - x|) n (fun _ => True) k (tree rows n x k)) (time : Id → ℝ) (refs cand : List Id)
    (hc : cand.Nodup) (m : ℤ) (hm : 0 < m) (r c : Id) (hr : r ∈ refs) (hcc : c ∈ cand) (hrc : r ≠ c)
    (hnot : sortedPair r c ∉ byTime tree time refs cand m) :
    ∃ near : List Id, near.Nodup ∧ (near.length : ℤ) = m ∧
      ∀ x ∈ near, x ∈ cand ∧ x ≠ r ∧ x ≠ c ∧ |time x - time r| ≤ |time c - time r| := by
  obtain ⟨i, hi, hie⟩ := List.getElem_of_mem hcc
  have hi' : cand[i]? = some c := by rw [List.getElem?_eq_getElem hi, hie]
  unfold byTime at hnot
  rw [if_neg (not_le.2 hm)] at hnot
  simp only at hnot
  rw [mem_foldl_query] at hnot
  have h := htree (fun j => match cand[j]? with
        | none => 0
        | some c => time c) cand.length (time r) (if r ∈ cand then (min (cand.length : ℤ) m).toNat + 1 else (min (cand.length : ℤ) m).toNat)
  have hni := fun hj => hnot ⟨r, hr, i, hj, c, hi', hrc, rfl⟩
  obtain ⟨near, h1, h2, h3⟩ := pushed_out (N := m.toNat) hc (by omega) h le_rfl (fun j _ hj => hj) hi' trivial hrc hni
  obtain ⟨l, l1, l2, l3⟩ := to_images hc h1 h3
  refine ⟨l, l1, by omega, ?_⟩
  intro x hx
  obtain ⟨j, e1, e2, e3, e4⟩ := l3 x hx
  rw [e1, hi'] at e4
  exact ⟨List.mem_of_getElem? e1, e2, e3, e4⟩

/-- By time: only images to match and candidates are paired. -/
theorem C107_time_sound (tree : (ℕ → ℝ) → ℕ → ℝ → ℕ → List ℕ) (time : Id → ℝ) (refs cand : List Id) (m : ℤ) (p : Id × Id)
    (h : p ∈ byTime tree time refs cand m) : 0 < m ∧ ∃ r ∈ refs, ∃ c ∈ cand, r ≠ c ∧ p = sortedPair r c := by
  unfold byTime at h
  split at h
  · simp at h
  · rename_i hm
    simp only at h
    rw [mem_foldl_query] at h
    obtain ⟨r, hr, j, hj, c, h1, h2, h3⟩ := h
    exact ⟨not_le.1 hm, r, hr, c, List.mem_of_getElem? h1, h2, h3⟩

/-! ### The points -/

theorem locateAll_spec (topo : ℝ → ℝ → ℝ → Vec 3) (tags : Id → Tags) (images : List Id) (d d' : Dict Id (Vec 3 × Vec 3))
    (h : locateAll topo tags images d = .ok d') (hd : d.Wf) :
    d'.Wf ∧ (∀ i ∈ images, ∃ o, locate topo (tags i) = .ok o) ∧
    ∀ i, d'.get? i = if i ∈ images then (match locate topo (tags i) with
      | .ok (some p) => some p
      | _ => d.get? i) else d.get? i := by
  induction images generalizing d with
  | nil =>
    simp only [locateAll, Except.ok.injEq] at h
    subst h
    exact ⟨hd, by simp, by simp⟩
  | cons a images ih =>
    unfold locateAll at h
    cases hl : locate topo (tags a) with
    | error e => rw [hl] at h; simp at h
    | ok o =>
      rw [hl] at h
      cases o with
      | none =>
        obtain ⟨h1, h2, h3⟩ := ih d h hd
        refine ⟨h1, ?_, ?_⟩
        · intro i hi
          rcases List.mem_cons.1 hi with rfl | hi
          · exact ⟨_, hl⟩
          · exact h2 i hi
        · intro i
          rw [h3 i]
          by_cases e : i = a
          · subst e; simp [hl]
          · simp [e]
      | some p =>
        obtain ⟨h1, h2, h3⟩ := ih (d.set a p) h (Dict.wf_set hd a p)
        refine ⟨h1, ?_, ?_⟩
        · intro i hi
          rcases List.mem_cons.1 hi with rfl | hi
          · exact ⟨_, hl⟩
          · exact h2 i hi
        · intro i
          rw [h3 i, Dict.get?_set]
          by_cases e : i = a
          · subst e; simp [hl]
          · simp [e, Ne.symm e]

theorem moved_spec (d : Dict Id (Vec 3 × Vec 3)) (a : ℝ) (images : List Id) (r r' : Dict Id (Vec 3)) (h : moved d a images r = .ok r')
    (hr : r.Wf) :
    r'.Wf ∧ (∀ i ∈ images, (d.get? i).isSome) ∧ ∀ i, r'.get? i = if i ∈ images then (d.get? i).map (fun p => p.1 + a • p.2) else r.get? i := by
  induction images generalizing r with
  | nil =>
    simp only [moved, Except.ok.injEq] at h
    subst h
    exact ⟨hr, by simp, by simp⟩
  | cons b images ih =>
    unfold moved at h
    cases hl : d.get? b with
    | none => rw [hl] at h; simp at h
    | some p =>
      rw [hl] at h
      obtain ⟨h1, h2, h3⟩ := ih _ h (Dict.wf_set hr _ _)
      refine ⟨h1, ?_, ?_⟩
      · intro i hi
        rcases List.mem_cons.1 hi with rfl | hi
        · simp [hl]
        · exact h2 i hi
      · intro i
        rw [h3 i, Dict.get?_set]
        by_cases e : i = b
        · subst e; simp [hl, defaultZ]
        · simp [e, Ne.symm e]

theorem representative_keys {topo : ℝ → ℝ → ℝ → Vec 3} {fit : List (ℝ × ℝ) → ℝ × ℝ × ℝ} {tags : Id → Tags} {images : List Id}
    {points : Dict Id (Vec 3)} (h : representative topo fit tags images = .ok points) :
    points.Wf ∧ ∀ i, (points.get? i).isSome → i ∈ images := by
  unfold representative at h
  cases hl : locateAll topo tags images [] with
  | error e => rw [hl] at h; simp at h
  | ok d =>
    rw [hl] at h
    obtain ⟨h1, h2, h3⟩ := locateAll_spec topo tags images [] d hl Dict.wf_nil
    simp only at h
    split at h
    · cases ha : bestAltitude fit d.vals with
      | none => rw [ha] at h; simp at h
      | some a =>
        rw [ha] at h
        obtain ⟨m1, m2, m3⟩ := moved_spec d a images [] points h Dict.wf_nil
        refine ⟨m1, ?_⟩
        intro i hi
        by_contra hn
        rw [m3, if_neg hn] at hi
        simp at hi
    · simp only [Except.ok.injEq] at h
      subst h
      refine ⟨by unfold Dict.Wf; rw [Dict.keys_mapVals]; exact h1, ?_⟩
      intro i hi
      by_contra hn
      rw [Dict.get?_mapVals, h3, if_neg hn] at hi
      simp at hi

/-- Without orientations the points are those of the images with a position, at altitude 0. -/
theorem C107_points (topo : ℝ → ℝ → ℝ → Vec 3) (fit : List (ℝ × ℝ) → ℝ × ℝ × ℝ) (tags : Id → Tags) (images : List Id)
    (ho : ∀ i ∈ images, (tags i).opk = none ∧ (tags i).ypr = false) :
    ∃ points, representative topo fit tags images = .ok points ∧
      ∀ i, points.get? i = if i ∈ images then (tags i).gps.map (fun g => topo g.1 g.2 0) else none := by
  have hloc : ∀ i ∈ images, locate topo (tags i) = .ok ((tags i).gps.map (fun g => gpsPoint topo g.1 g.2)) := by
    intro i hi
    obtain ⟨h1, h2⟩ := ho i hi
    unfold locate
    cases hg : (tags i).gps with
    | none => rfl
    | some g => simp [h1, h2]
  have hex : ∀ (l : List Id) (d : Dict Id (Vec 3 × Vec 3)), (∀ i ∈ l, i ∈ images) → ∃ d', locateAll topo tags l d = .ok d' := by
    intro l
    induction l with
    | nil => intro d _; exact ⟨d, rfl⟩
    | cons a l ih =>
      intro d hl
      unfold locateAll
      rw [hloc a (hl a List.mem_cons_self)]
      have hl' := fun i hi => hl i (List.mem_cons_of_mem _ hi)
      cases (tags a).gps with
      | none => exact ih d hl'
      | some g => exact ih _ hl'
  obtain ⟨d, hd⟩ := hex images [] (fun _ h => h)
  obtain ⟨h1, h2, h3⟩ := locateAll_spec topo tags images [] d hd Dict.wf_nil
  have hor : hadOrientation tags images = false := by
    unfold hadOrientation
    rw [List.any_eq_false]
    intro i hi
    obtain ⟨a, b⟩ := ho i hi
    simp [a, b]
  refine ⟨d.mapVals (fun _ p => p.1), ?_, ?_⟩
  · unfold representative
    rw [hd]
    simp [hor]
  · intro i
    rw [Dict.get?_mapVals, h3]
    by_cases hi : i ∈ images
    · rw [if_pos hi, if_pos hi, hloc i hi]
      cases (tags i).gps <;> simp [gpsPoint]
    · simp [hi]

theorem sign_pos {x : ℝ} (h : x ≠ 0) : sign x * x = |x| := by
  unfold sign
  split
  · rename_i h1; rw [abs_of_pos h1, one_mul]
  · rename_i h1; rw [abs_of_nonpos (not_lt.1 h1)]; ring

/-- With orientations: all points are moved by the same altitude, those of images with omega, phi and kappa along their viewing
direction, so that their height changes by the altitude; those of other images upwards. -/
theorem C107_oriented (topo : ℝ → ℝ → ℝ → Vec 3) (fit : List (ℝ × ℝ) → ℝ × ℝ × ℝ) (tags : Id → Tags) (images : List Id)
    (points : Dict Id (Vec 3)) (h : representative topo fit tags images = .ok points)
    (ho : ∃ i ∈ images, (tags i).gps ≠ none ∧ (tags i).opk ≠ none) :
    ∃ a : ℝ, 0 ≤ a ∧ ∀ i ∈ images, ∃ (lat lon : ℝ) (dir : Vec 3), (tags i).gps = some (lat, lon) ∧
      points.get? i = some (topo lat lon 0 + a • dir) ∧ |dir 2| = 1 ∧
      ((tags i).opk = none → dir = ![0, 0, 1]) ∧
      (∀ o p k : ℝ, (tags i).opk = some (o, p, k) → ∃ s : ℝ, 0 < s ∧
        dir = s • Angles.rotationFromOpk (radians o) (radians p) (radians k) 2) := by
  have hor : hadOrientation tags images = true := by
    obtain ⟨i, hi, h1, h2⟩ := ho
    unfold hadOrientation
    rw [List.any_eq_true]
    refine ⟨i, hi, ?_⟩
    cases hg : (tags i).gps with
    | none => exact absurd hg h1
    | some g =>
      cases hp : (tags i).opk with
      | none => exact absurd hp h2
      | some p => simp
  unfold representative at h
  cases hl : locateAll topo tags images [] with
  | error e => rw [hl] at h; simp at h
  | ok d =>
    rw [hl] at h
    simp only [hor, if_true] at h
    obtain ⟨h1, h2, h3⟩ := locateAll_spec topo tags images [] d hl Dict.wf_nil
    cases ha : bestAltitude fit d.vals with
    | none => rw [ha] at h; simp at h
    | some a =>
      rw [ha] at h
      obtain ⟨m1, m2, m3⟩ := moved_spec d a images [] points h Dict.wf_nil
      refine ⟨a, ?_, ?_⟩
      · unfold bestAltitude at ha
        simp only at ha
        split at ha
        · simp at ha
        · simp only [Option.some.injEq] at ha
          rw [← ha]
          split
          · unfold defaultZ; norm_num
          · rename_i hh; exact not_lt.1 hh
      · intro i hi
        have hs := m2 i hi
        rw [h3, if_pos hi] at hs
        have hm := m3 i
        rw [if_pos hi, h3, if_pos hi] at hm
        cases hg : (tags i).gps with
        | none => simp [locate, hg] at hs
        | some g =>
          obtain ⟨lat, lon⟩ := g
          cases hy : (tags i).ypr with
          | true => simp [locate, hg, hy] at hs
          | false =>
            cases hp : (tags i).opk with
            | none =>
              have e : locate topo (tags i) = .ok (some (gpsPoint topo lat lon)) := by simp [locate, hg, hy, hp]
              rw [e] at hm
              exact ⟨lat, lon, ![0, 0, 1], rfl, by rw [hm]; rfl, by simp, fun _ => rfl, fun _ _ _ h => by simp at h⟩
            | some opk =>
              obtain ⟨o, p, k⟩ := opk
              cases hq : gpsOpkPoint topo lat lon (o, p, k) with
              | none => simp [locate, hg, hy, hp, hq] at hs
              | some q =>
                have e : locate topo (tags i) = .ok (some q) := by simp [locate, hg, hy, hp, hq]
                rw [e] at hm
                unfold gpsOpkPoint at hq
                simp only at hq
                obtain ⟨z, hz⟩ : ∃ z : Vec 3, z = Angles.rotationFromOpk (radians o) (radians p) (radians k) 2 := ⟨_, rfl⟩
                rw [← hz] at hq
                split at hq
                · simp at hq
                · rename_i hne
                  simp only [Option.some.injEq] at hq
                  have hz2 : z 2 ≠ 0 := fun e => hne (by rw [e, mul_zero])
                  rw [sign_pos hz2] at hq
                  have hpos : 0 < |z 2| := abs_pos.2 hz2
                  refine ⟨lat, lon, q.2, rfl, ?_, ?_, fun h => by simp at h, ?_⟩
                  · rw [hm, ← hq]; rfl
                  · rw [← hq]
                    simp only [defaultZ, one_smul, Pi.smul_apply, smul_eq_mul, abs_mul, abs_div, abs_one, abs_abs]
                    field_simp
                  · intro o' p' k' e'
                    simp only [Option.some.injEq, Prod.mk.injEq] at e'
                    obtain ⟨rfl, rfl, rfl⟩ := e'
                    refine ⟨1 / |z 2|, by positivity, ?_⟩
                    rw [← hz, ← hq]
                    simp [defaultZ]

/-! ### By distance -/

theorem points_length {images : List Id} {points : Dict Id (Vec 3)} (hw : points.Wf) (hk : ∀ i, (points.get? i).isSome → i ∈ images) :
    points.length = images.dedup.length ↔ ∀ i ∈ images, (points.get? i).isSome := by
  have hsub : points.keys ⊆ images.dedup := fun i hi => List.mem_dedup.2 (hk i ((Dict.mem_keys_iff _ _).1 hi))
  have hsp := List.subperm_of_subset hw hsub
  rw [← Dict.length_eq_keys]
  constructor
  · intro h i hi
    have hp := hsp.perm_of_length_le (le_of_eq h.symm)
    exact (Dict.mem_keys_iff _ _).1 (hp.mem_iff.2 (List.mem_dedup.2 hi))
  · intro h
    apply le_antisymm hsp.length_le
    exact (List.subperm_of_subset (List.nodup_dedup _) (fun i hi => (Dict.mem_keys_iff _ _).2 (h i (List.mem_dedup.1 hi)))).length_le

/-- The result when every image has a point. -/
theorem byDistance_eq {topo : ℝ → ℝ → ℝ → Vec 3} {fit : List (ℝ × ℝ) → ℝ × ℝ × ℝ} {tags : Id → Tags}
    {tree : (ℕ → Vec 3) → ℕ → Vec 3 → ℕ → ℝ → List ℕ} {refs cand : List Id} {m : ℤ} {dist : ℝ} (hpos : 0 < m ∨ 0 < dist) (hcand : cand ≠ [])
    {points : Dict Id (Vec 3)} (hp : representative topo fit tags (cand ++ refs) = .ok points)
    (hall : ∀ i ∈ cand ++ refs, (points.get? i).isSome) :
    byDistance topo fit tags tree refs cand m dist = .ok (distanceLoop tree cand points
      (min (cand.length : ℤ) (if m = 0 then 99999999 else m)).toNat (if dist = 0 then 99999999 else dist) refs) := by
  obtain ⟨hw, hk⟩ := representative_keys hp
  have hne : ¬ (m ≤ 0 ∧ dist ≤ 0) := by
    rintro ⟨a, b⟩
    rcases hpos with h | h
    · exact absurd h (not_lt.2 a)
    · exact absurd h (not_lt.2 b)
  unfold byDistance
  rw [if_neg (by simpa using hcand), if_neg hne]
  simp only [hp]
  rw [if_neg (not_not.2 ((points_length hw hk).2 hall))]

theorem nodup_take_rows {cand : List Id} {points : Dict Id (Vec 3)} {i : ℕ} {c : Id} {q : Vec 3} (hi : cand[i]? = some c)
    (hq : points.get? c = some q) : rows cand points i = q := by
  unfold rows
  rw [hi]
  simp [hq]

theorem rows_beyond {cand : List Id} {points : Dict Id (Vec 3)} {i : ℕ} (hi : cand.length ≤ i) : rows cand points i = 0 := by
  unfold rows
  rw [List.getElem?_eq_none hi]

/-- By distance: a candidate that was not paired with an image although it is near enough has been pushed out by as many other candidates as
were asked for, none of them further away; or, when there are images that are not candidates, the origin of the coordinates is not further
away (rows of zeros that stand for nothing). -/
theorem C107_distance (topo : ℝ → ℝ → ℝ → Vec 3) (fit : List (ℝ × ℝ) → ℝ × ℝ × ℝ) (tags : Id → Tags)
    (tree : (ℕ → Vec 3) → ℕ → Vec 3 → ℕ → ℝ → List ℕ)
    (htree : ∀ rows n x k b, Nearest (fun j => apart (rows j) x) n (fun d => d < b) k (tree rows n x k b))
    (refs cand : List Id) (hc : cand.Nodup) (m : ℤ) (hm : 0 ≤ m) (dist : ℝ) (hpos : 0 < m ∨ 0 < dist) (points : Dict Id (Vec 3))
    (hp : representative topo fit tags (cand ++ refs) = .ok points) (hall : ∀ i ∈ cand ++ refs, (points.get? i).isSome)
    (out : List (Id × Id)) (ho : byDistance topo fit tags tree refs cand m dist = .ok out)
    (r c : Id) (hr : r ∈ refs) (hcc : c ∈ cand) (hrc : r ≠ c) (p q : Vec 3) (hpr : points.get? r = some p) (hpc : points.get? c = some q)
    (hnear : apart q p < if dist = 0 then 99999999 else dist) (hnot : sortedPair r c ∉ out) :
    (∃ near : List Id, near.Nodup ∧ (near.length : ℤ) = (if m = 0 then 99999999 else m) ∧
      ∀ x ∈ near, x ∈ cand ∧ x ≠ r ∧ x ≠ c ∧ ∃ s, points.get? x = some s ∧ apart s p ≤ apart q p) ∨
    ((∃ i ∈ refs, i ∉ cand) ∧ apart 0 p ≤ apart q p) := by
  obtain ⟨i, hi, hie⟩ := List.getElem_of_mem hcc
  have hi' : cand[i]? = some c := by rw [List.getElem?_eq_getElem hi, hie]
  obtain ⟨hw, hk⟩ := representative_keys hp
  rw [byDistance_eq hpos (List.ne_nil_of_mem hcc) hp hall] at ho
  simp only [Except.ok.injEq] at ho
  rw [← ho] at hnot
  unfold distanceLoop at hnot
  rw [mem_foldl_query] at hnot
  obtain ⟨N, hN⟩ : ∃ N : ℕ, (N : ℤ) = if m = 0 then 99999999 else m := by
    refine ⟨(if m = 0 then 99999999 else m).toNat, ?_⟩
    split <;> omega
  obtain ⟨b, hb⟩ : ∃ b : ℝ, b = if dist = 0 then 99999999 else dist := ⟨_, rfl⟩
  rw [← hN, ← hb] at hnot
  rw [← hb] at hnear
  have h := htree (rows cand points) points.length ((points.get? r).getD 0)
    (if r ∈ cand then (min (cand.length : ℤ) N).toNat + 1 else (min (cand.length : ℤ) N).toNat) b
  have hni := fun hj => hnot ⟨r, hr, i, hj, c, hi', hrc, rfl⟩
  have hri := nodup_take_rows hi' hpc
  have hpp : (points.get? r).getD 0 = p := by rw [hpr]; rfl
  have hlen : cand.length ≤ points.length := by
    rw [(points_length hw hk).2 hall]
    exact (List.subperm_of_subset hc (fun x hx => List.mem_dedup.2 (List.mem_append_left _ hx))).length_le
  have hbi : (fun d => d < b) ((fun j => apart (rows cand points j) ((points.get? r).getD 0)) i) := by
    simp only [hri, hpp]; exact hnear
  by_cases hex : ∀ j ∈ tree (rows cand points) points.length ((points.get? r).getD 0)
      (if r ∈ cand then (min (cand.length : ℤ) N).toNat + 1 else (min (cand.length : ℤ) N).toNat) b, j < points.length → j < cand.length
  · left
    obtain ⟨near, h1, h2, h3⟩ := pushed_out (N := N) hc (by omega) h hlen hex hi' hbi hrc hni
    obtain ⟨l, l1, l2, l3⟩ := to_images hc h1 h3
    refine ⟨l, l1, by omega, ?_⟩
    intro x hx
    obtain ⟨j, e1, e2, e3, e4⟩ := l3 x hx
    have hxc := List.mem_of_getElem? e1
    obtain ⟨s, hs⟩ := Option.isSome_iff_exists.1 (hall x (List.mem_append_left _ hxc))
    refine ⟨hxc, e2, e3, s, hs, ?_⟩
    rw [nodup_take_rows e1 hs, hri, hpp] at e4
    exact e4
  · right
    push Not at hex
    obtain ⟨j, hj, hjn, hjc⟩ := hex
    refine ⟨?_, ?_⟩
    · by_contra hno
      push Not at hno
      have : points.length ≤ cand.length := by
        rw [← Dict.length_eq_keys]
        apply (List.subperm_of_subset hw _).length_le
        intro x hx
        rcases List.mem_append.1 (hk x ((Dict.mem_keys_iff _ _).1 hx)) with e | e
        · exact e
        · exact hno x e
      omega
    · have := ((nearest_rows h (lt_of_lt_of_le hi hlen) hbi hni).2.2 j hj).2
      simp only [rows_beyond hjc, hri, hpp] at this
      exact this

/-- By distance: only images to match and candidates nearer than the limit are paired. -/
theorem C107_distance_sound (topo : ℝ → ℝ → ℝ → Vec 3) (fit : List (ℝ × ℝ) → ℝ × ℝ × ℝ) (tags : Id → Tags)
    (tree : (ℕ → Vec 3) → ℕ → Vec 3 → ℕ → ℝ → List ℕ)
    (htree : ∀ rows n x k b, Nearest (fun j => apart (rows j) x) n (fun d => d < b) k (tree rows n x k b))
    (refs cand : List Id) (hc : cand.Nodup) (m : ℤ) (dist : ℝ) (out : List (Id × Id))
    (ho : byDistance topo fit tags tree refs cand m dist = .ok out) (pr : Id × Id) (hpr : pr ∈ out) :
    (0 < m ∨ 0 < dist) ∧ ∃ points, representative topo fit tags (cand ++ refs) = .ok points ∧ (∀ i ∈ cand ++ refs, (points.get? i).isSome) ∧
      ∃ r ∈ refs, ∃ c ∈ cand, r ≠ c ∧ pr = sortedPair r c ∧ ∃ p q, points.get? r = some p ∧ points.get? c = some q ∧
        apart q p < if dist = 0 then 99999999 else dist := by
  by_cases hcand : cand = []
  · subst hcand
    simp only [byDistance, List.length_nil, if_true, Except.ok.injEq] at ho
    rw [← ho] at hpr
    simp at hpr
  by_cases hne : m ≤ 0 ∧ dist ≤ 0
  · unfold byDistance at ho
    rw [if_neg (by simpa using hcand), if_pos hne] at ho
    simp only [Except.ok.injEq] at ho
    rw [← ho] at hpr
    simp at hpr
  have hpos : 0 < m ∨ 0 < dist := by
    by_cases h : 0 < m
    · exact Or.inl h
    · refine Or.inr (not_le.1 (fun h2 => hne ⟨not_lt.1 h, h2⟩))
  refine ⟨hpos, ?_⟩
  cases hp : representative topo fit tags (cand ++ refs) with
  | error e =>
    unfold byDistance at ho
    rw [if_neg (by simpa using hcand), if_neg hne] at ho
    simp [hp] at ho
  | ok points =>
    obtain ⟨hw, hk⟩ := representative_keys hp
    have hall : ∀ i ∈ cand ++ refs, (points.get? i).isSome := by
      rw [← points_length hw hk]
      by_contra hl
      unfold byDistance at ho
      rw [if_neg (by simpa using hcand), if_neg hne] at ho
      simp only [hp] at ho
      rw [if_pos hl] at ho
      simp only [Except.ok.injEq] at ho
      rw [← ho] at hpr
      simp at hpr
    refine ⟨points, rfl, hall, ?_⟩
    rw [byDistance_eq hpos hcand hp hall] at ho
    simp only [Except.ok.injEq] at ho
    rw [← ho] at hpr
    unfold distanceLoop at hpr
    rw [mem_foldl_query] at hpr
    obtain ⟨r, hr, j, hj, c, hjc, hrc, he⟩ := hpr
    have hcm := List.mem_of_getElem? hjc
    obtain ⟨p, hp'⟩ := Option.isSome_iff_exists.1 (hall r (List.mem_append_right _ hr))
    obtain ⟨q, hq'⟩ := Option.isSome_iff_exists.1 (hall c (List.mem_append_left _ hcm))
    refine ⟨r, hr, c, hcm, hrc, he, p, q, hp', hq', ?_⟩
    have hlen : cand.length ≤ points.length := by
      rw [(points_length hw hk).2 hall]
      exact (List.subperm_of_subset hc (fun x hx => List.mem_dedup.2 (List.mem_append_left _ hx))).length_le
    have := (htree _ _ _ _ _).within j hj (lt_of_lt_of_le (List.getElem?_eq_some_iff.1 hjc).1 hlen)
    rw [nodup_take_rows hjc hq', hp'] at this
    exact this

/-- One image without a point and no image gets a pair. -/
theorem C107_all_or_none (topo : ℝ → ℝ → ℝ → Vec 3) (fit : List (ℝ × ℝ) → ℝ × ℝ × ℝ) (tags : Id → Tags)
    (tree : (ℕ → Vec 3) → ℕ → Vec 3 → ℕ → ℝ → List ℕ) (refs cand : List Id) (m : ℤ) (dist : ℝ)
    (ho : ∀ i ∈ cand ++ refs, (tags i).opk = none ∧ (tags i).ypr = false) (hno : ∃ i ∈ cand ++ refs, (tags i).gps = none) :
    byDistance topo fit tags tree refs cand m dist = .ok [] := by
  obtain ⟨points, hp, hpt⟩ := C107_points topo fit tags (cand ++ refs) ho
  obtain ⟨hw, hk⟩ := representative_keys hp
  have hl : points.length ≠ (cand ++ refs).dedup.length := by
    intro h
    obtain ⟨i, hi, hg⟩ := hno
    have := (points_length hw hk).1 h i hi
    rw [hpt, if_pos hi, hg] at this
    simp at this
  unfold byDistance
  split
  · rfl
  · split
    · rfl
    · simp only [hp]
      rw [if_pos hl]

/-- **Rows of zeros hide the candidates**: images that are not candidates put as many rows of zeros into the tree, and when the origin is
nearer to each of them than every candidate, none gets a pair, however near the candidates are. -/
theorem C107_phantom (topo : ℝ → ℝ → ℝ → Vec 3) (fit : List (ℝ × ℝ) → ℝ × ℝ × ℝ) (tags : Id → Tags)
    (tree : (ℕ → Vec 3) → ℕ → Vec 3 → ℕ → ℝ → List ℕ)
    (htree : ∀ rows n x k b, Nearest (fun j => apart (rows j) x) n (fun d => d < b) k (tree rows n x k b))
    (refs cand : List Id) (hc : cand.Nodup) (hr : refs.Nodup) (hd : ∀ i ∈ refs, i ∉ cand) (m : ℤ) (hm : 0 < m) (hml : m ≤ refs.length) (dist : ℝ)
    (points : Dict Id (Vec 3))
    (hp : representative topo fit tags (cand ++ refs) = .ok points) (hall : ∀ i ∈ cand ++ refs, (points.get? i).isSome)
    (hnear : ∀ r ∈ refs, ∀ p, points.get? r = some p → apart 0 p < (if dist = 0 then 99999999 else dist) ∧
      ∀ c ∈ cand, ∀ q, points.get? c = some q → apart 0 p < apart q p) :
    byDistance topo fit tags tree refs cand m dist = .ok [] := by
  by_cases hcand : cand = []
  · subst hcand; rfl
  obtain ⟨hw, hk⟩ := representative_keys hp
  rw [byDistance_eq (Or.inl hm) hcand hp hall, if_neg hm.ne']
  congr 1
  rw [List.eq_nil_iff_forall_not_mem]
  intro pr hpr
  unfold distanceLoop at hpr
  rw [mem_foldl_query] at hpr
  obtain ⟨r, hrm, i, hi, c, hic, hrc, -⟩ := hpr
  rw [if_neg (hd r hrm)] at hi
  obtain ⟨b, hb⟩ : ∃ b : ℝ, b = if dist = 0 then 99999999 else dist := ⟨_, rfl⟩
  obtain ⟨p, hp'⟩ := Option.isSome_iff_exists.1 (hall r (List.mem_append_right _ hrm))
  obtain ⟨q, hq'⟩ := Option.isSome_iff_exists.1 (hall c (List.mem_append_left _ (List.mem_of_getElem? hic)))
  have h := htree (rows cand points) points.length ((points.get? r).getD 0) (min (cand.length : ℤ) m).toNat b
  rw [← hb] at hi
  obtain ⟨hn1, hn2⟩ := hnear r hrm p hp'
  have hn3 := hn2 c (List.mem_of_getElem? hic) q hq'
  rw [← hb] at hn1
  have hpp : (points.get? r).getD 0 = p := by rw [hp']; rfl
  have hlen : points.length = cand.length + refs.length := by
    rw [(points_length hw hk).2 hall, List.Nodup.dedup, List.length_append]
    exact List.nodup_append.2 ⟨hc, hr, fun a ha b hb e => hd b hb (e ▸ ha)⟩
  obtain ⟨js, hjs⟩ : ∃ js : List ℕ, js = tree (rows cand points) points.length ((points.get? r).getD 0) (min (cand.length : ℤ) m).toNat b := ⟨_, rfl⟩
  rw [← hjs] at h hi
  have hil := (List.getElem?_eq_some_iff.1 hic).1
  have hin : ∀ j ∈ List.range' cand.length refs.length, j ∈ js := by
    intro j hj
    rw [List.mem_range'_1] at hj
    by_contra hnj
    have := (h.complete j (by omega) (by simp only [rows_beyond hj.1, hpp]; exact hn1) hnj i hi).2
    simp only [rows_beyond hj.1, nodup_take_rows hic hq', hpp] at this
    exact absurd hn3 (not_lt.2 this)
  have hsub : (i :: List.range' cand.length refs.length) ⊆ js.filter (fun j => decide (j < points.length)) := by
    intro j hj
    rw [List.mem_filter]
    rcases List.mem_cons.1 hj with rfl | hj
    · exact ⟨hi, by simpa using by omega⟩
    · refine ⟨hin j hj, ?_⟩
      rw [List.mem_range'_1] at hj
      simpa using by omega
  have hnd : (i :: List.range' cand.length refs.length).Nodup := by
    refine List.nodup_cons.2 ⟨?_, by simp [List.nodup_range']⟩
    rw [List.mem_range'_1]
    omega
  have h1 := (List.subperm_of_subset hnd hsub).length_le
  have h2 := (List.filter_sublist (l := js) (p := fun j => decide (j < points.length))).length_le
  rw [h.length] at h2
  simp only [List.length_cons, List.length_range'] at h1
  omega

/-! ### Orientations -/

/-- When some image has an orientation, an image without position makes the choice of points fail. -/
theorem C107_missing (topo : ℝ → ℝ → ℝ → Vec 3) (fit : List (ℝ × ℝ) → ℝ × ℝ × ℝ) (tags : Id → Tags) (images : List Id)
    (ho : ∃ i ∈ images, (tags i).gps ≠ none ∧ (tags i).opk ≠ none) (hno : ∃ i ∈ images, (tags i).gps = none) (points : Dict Id (Vec 3)) :
    representative topo fit tags images ≠ .ok points := by
  intro h
  obtain ⟨i, hi, hg⟩ := hno
  obtain ⟨a, -, hall⟩ := C107_oriented topo fit tags images points h ho
  obtain ⟨lat, lon, dir, he, -⟩ := hall i hi
  rw [hg] at he
  simp at he

/-- … and so does the choice of pairs, where without orientations it would only give none. -/
theorem C107_missing_pairs (topo : ℝ → ℝ → ℝ → Vec 3) (fit : List (ℝ × ℝ) → ℝ × ℝ × ℝ) (tags : Id → Tags)
    (tree : (ℕ → Vec 3) → ℕ → Vec 3 → ℕ → ℝ → List ℕ) (refs cand : List Id) (hc : cand ≠ []) (m : ℤ) (dist : ℝ) (hpos : 0 < m ∨ 0 < dist)
    (ho : ∃ i ∈ cand ++ refs, (tags i).gps ≠ none ∧ (tags i).opk ≠ none) (hno : ∃ i ∈ cand ++ refs, (tags i).gps = none) (out : List (Id × Id)) :
    byDistance topo fit tags tree refs cand m dist ≠ .ok out := by
  intro h
  have hne : ¬ (m ≤ 0 ∧ dist ≤ 0) := by
    rintro ⟨a, b⟩
    rcases hpos with h | h
    · exact absurd h (not_lt.2 a)
    · exact absurd h (not_lt.2 b)
  unfold byDistance at h
  rw [if_neg (by simpa using hc), if_neg hne] at h
  cases hp : representative topo fit tags (cand ++ refs) with
  | error e => simp [hp] at h
  | ok points => exact C107_missing topo fit tags _ ho hno points hp

theorem opk_zero : Angles.rotationFromOpk (radians 0) (radians 0) (radians 0) 2 = ![0, 0, -1] := by
  have h0 : radians 0 = 0 := by simp [radians]
  have hr : ∀ v : Fin 3 → ℝ, v = 0 → Angles.rodrigues v = 1 := by
    rintro v rfl
    unfold Angles.rodrigues
    have : AlignPrior.norm (0 : Fin 3 → ℝ) = 0 := by simp [AlignPrior.norm]
    simp [this]
  unfold Angles.rotationFromOpk
  rw [h0, hr _ (by ext i; fin_cases i <;> simp), hr _ (by ext i; fin_cases i <;> simp), hr _ (by ext i; fin_cases i <;> simp)]
  ext k
  fin_cases k <;> simp [Angles.opkAxes]

/-- **Two images at the same place**, one that looks straight down and one without orientation, are put twice the altitude apart. -/
theorem C107_mixed (topo : ℝ → ℝ → ℝ → Vec 3) (fit : List (ℝ × ℝ) → ℝ × ℝ × ℝ) (tags : Id → Tags) (images : List Id)
    (points : Dict Id (Vec 3)) (h : representative topo fit tags images = .ok points) (i j : Id) (hi : i ∈ images) (hj : j ∈ images)
    (hgj : (tags j).gps ≠ none) (hg : (tags i).gps = (tags j).gps) (hio : (tags i).opk = none) (hjo : (tags j).opk = some (0, 0, 0)) :
    ∃ (a : ℝ) (p q : Vec 3), 0 ≤ a ∧ points.get? i = some p ∧ points.get? j = some q ∧ p - q = ![0, 0, 2 * a] ∧
      ∀ k ∈ images, ∀ s, points.get? k = some s → ∀ lat lon, (tags k).gps = some (lat, lon) → |(s - topo lat lon 0) 2| = a := by
  obtain ⟨a, ha, hall⟩ := C107_oriented topo fit tags images points h ⟨j, hj, hgj, by rw [hjo]; simp⟩
  obtain ⟨lat, lon, dir, g1, p1, -, d1, -⟩ := hall i hi
  obtain ⟨lat', lon', dir', g2, p2, u2, -, d2⟩ := hall j hj
  rw [g1, g2] at hg
  simp only [Option.some.injEq, Prod.mk.injEq] at hg
  obtain ⟨rfl, rfl⟩ := hg
  obtain ⟨s, hs, hd⟩ := d2 0 0 0 hjo
  rw [opk_zero] at hd
  have hs1 : s = 1 := by
    rw [hd] at u2
    simpa [abs_of_pos hs] using u2
  refine ⟨a, _, _, ha, p1, p2, ?_, ?_⟩
  · rw [d1 hio, hd, hs1]
    apply RelativePose.vec_ext <;> simp
    ring
  · intro k hk s hs lat3 lon3 hg3
    obtain ⟨lat4, lon4, dir4, g4, p4, u4, -, -⟩ := hall k hk
    rw [hg3] at g4
    simp only [Option.some.injEq, Prod.mk.injEq] at g4
    obtain ⟨rfl, rfl⟩ := g4
    rw [p4] at hs
    simp only [Option.some.injEq] at hs
    rw [← hs]
    simp [abs_mul, u4, abs_of_nonneg ha]

/-! ### The altitude -/

theorem sum_nonneg_zero {l : List ℝ} (h : ∀ x ∈ l, 0 ≤ x) (hs : l.sum ≤ 0) : ∀ x ∈ l, x = 0 := by
  induction l with
  | nil => simp
  | cons a l ih =>
    rw [List.sum_cons] at hs
    have h1 := h a List.mem_cons_self
    have h2 : 0 ≤ l.sum := List.sum_nonneg (fun x hx => h x (List.mem_cons_of_mem _ hx))
    intro x hx
    rcases List.mem_cons.1 hx with rfl | hx
    · linarith
    · exact ih (fun y hy => h y (List.mem_cons_of_mem _ hy)) (by linarith) x hx

/-- A least squares fit to at least three points of a polynomial of degree two is that polynomial. -/
theorem fit_exact {fit : List (ℝ × ℝ) → ℝ × ℝ × ℝ} (hf : LeastSquares fit) {zs : List ℝ} {A B C : ℝ} {z₁ z₂ z₃ : ℝ} (h₁ : z₁ ∈ zs) (h₂ : z₂ ∈ zs)
    (h₃ : z₃ ∈ zs) (n12 : z₁ ≠ z₂) (n13 : z₁ ≠ z₃) (n23 : z₂ ≠ z₃) {f : ℝ → ℝ} (hq : ∀ z, f z = A * z ^ 2 + B * z + C) :
    fit (zs.map (fun z => (z, f z))) = (A, B, C) := by
  have hle := hf (zs.map (fun z => (z, f z))) (A, B, C)
  obtain ⟨c, hc⟩ : ∃ c : ℝ × ℝ × ℝ, c = fit (zs.map (fun z => (z, f z))) := ⟨_, rfl⟩
  rw [← hc] at hle ⊢
  unfold squares at hle
  rw [List.map_map, List.map_map] at hle
  have h0 : (zs.map ((fun s : ℝ × ℝ => ((A, B, C).1 * s.1 ^ 2 + (A, B, C).2.1 * s.1 + (A, B, C).2.2 - s.2) ^ 2) ∘ fun z => (z, f z))).sum = 0 := by
    apply List.sum_eq_zero
    intro x hx
    obtain ⟨z, -, rfl⟩ := List.mem_map.1 hx
    simp [hq z]
  rw [h0] at hle
  have hz : ∀ z ∈ zs, c.1 * z ^ 2 + c.2.1 * z + c.2.2 = A * z ^ 2 + B * z + C := by
    intro z hz
    have := sum_nonneg_zero (by
      intro x hx
      obtain ⟨z, -, rfl⟩ := List.mem_map.1 hx
      exact sq_nonneg _) hle _ (List.mem_map.2 ⟨z, hz, rfl⟩)
    simp only [Function.comp, hq z] at this
    have := pow_eq_zero_iff (two_ne_zero) |>.1 this
    linarith
  have e1 := hz z₁ h₁
  have e2 := hz z₂ h₂
  have e3 := hz z₃ h₃
  have k1 : (c.1 - A) * (z₁ + z₂) + (c.2.1 - B) = 0 := by
    apply mul_left_cancel₀ (sub_ne_zero.2 n12)
    linear_combination e1 - e2
  have k2 : (c.1 - A) * (z₁ + z₃) + (c.2.1 - B) = 0 := by
    apply mul_left_cancel₀ (sub_ne_zero.2 n13)
    linear_combination e1 - e3
  have k3 : c.1 - A = 0 := by
    apply mul_left_cancel₀ (sub_ne_zero.2 n23)
    linear_combination k1 - k2
  have k4 : c.2.1 - B = 0 := by rw [k3] at k1; linarith
  have k5 : c.2.2 - C = 0 := by linear_combination e1 - z₁ ^ 2 * k3 - z₁ * k4
  ext
  · exact sub_eq_zero.1 k3
  · exact sub_eq_zero.1 k4
  · exact sub_eq_zero.1 k5

theorem sample_mem : (1 : ℝ) ∈ sampleZ ∧ (101 : ℝ) ∈ sampleZ ∧ (201 : ℝ) ∈ sampleZ := by
  unfold sampleZ
  refine ⟨List.mem_map.2 ⟨(0 : ℕ), List.mem_range.2 (by norm_num), by norm_num⟩, List.mem_map.2 ⟨(1 : ℕ), List.mem_range.2 (by norm_num), by norm_num⟩,
    List.mem_map.2 ⟨(2 : ℕ), List.mem_range.2 (by norm_num), by norm_num⟩⟩

theorem spread_two (a b : ℝ) : spread [a, b] ^ 2 = (a - b) ^ 2 := by
  simp only [spread, List.foldl_cons, List.foldl_nil]
  rcases le_total a b with h | h
  · rw [max_eq_right h, min_eq_left h]; ring
  · rw [max_eq_left h, min_eq_right h]

/-- Two images: the altitude is the one where the horizontal distance of the moved points is least, or 1 when that altitude is negative. -/
theorem C107_altitude_two (fit : List (ℝ × ℝ) → ℝ × ℝ × ℝ) (hf : LeastSquares fit) (o₁ d₁ o₂ d₂ : Vec 3)
    (hd : d₁ 0 ≠ d₂ 0 ∨ d₁ 1 ≠ d₂ 1) :
    ∃ e : ℝ, (∀ z : ℝ, z ≠ e →
        ((o₁ + e • d₁) 0 - (o₂ + e • d₂) 0) ^ 2 + ((o₁ + e • d₁) 1 - (o₂ + e • d₂) 1) ^ 2 <
        ((o₁ + z • d₁) 0 - (o₂ + z • d₂) 0) ^ 2 + ((o₁ + z • d₁) 1 - (o₂ + z • d₂) 1) ^ 2) ∧
      bestAltitude fit [(o₁, d₁), (o₂, d₂)] = some (if e < 0 then 1 else e) := by
  obtain ⟨A, hA⟩ : ∃ A : ℝ, A = (d₁ 0 - d₂ 0) ^ 2 + (d₁ 1 - d₂ 1) ^ 2 := ⟨_, rfl⟩
  obtain ⟨B, hB⟩ : ∃ B : ℝ, B = 2 * ((o₁ 0 - o₂ 0) * (d₁ 0 - d₂ 0) + (o₁ 1 - o₂ 1) * (d₁ 1 - d₂ 1)) := ⟨_, rfl⟩
  obtain ⟨C, hC⟩ : ∃ C : ℝ, C = (o₁ 0 - o₂ 0) ^ 2 + (o₁ 1 - o₂ 1) ^ 2 := ⟨_, rfl⟩
  have hApos : 0 < A := by
    rw [hA]
    rcases hd with h | h
    · have := sub_ne_zero.2 h; positivity
    · have := sub_ne_zero.2 h; positivity
  have hq : ∀ z : ℝ, ((o₁ + z • d₁) 0 - (o₂ + z • d₂) 0) ^ 2 + ((o₁ + z • d₁) 1 - (o₂ + z • d₂) 1) ^ 2 = A * z ^ 2 + B * z + C := by
    intro z
    simp only [Pi.add_apply, Pi.smul_apply, smul_eq_mul, hA, hB, hC]
    ring
  have hs : ∀ z : ℝ, sizeAt [(o₁, d₁), (o₂, d₂)] z = A * z ^ 2 + B * z + C := by
    intro z
    rw [← hq z]
    unfold sizeAt
    simp only [List.map_cons, List.map_nil, spread_two, defaultZ, div_one]
  refine ⟨-B / (2 * A), ?_, ?_⟩
  · intro z hz
    rw [hq, hq]
    have h1 : z + B / (2 * A) ≠ 0 := fun h => hz (by rw [neg_div]; linarith)
    have h2 : A * z ^ 2 + B * z + C - (A * (-B / (2 * A)) ^ 2 + B * (-B / (2 * A)) + C) = A * (z + B / (2 * A)) ^ 2 := by
      field_simp
      ring
    have h3 : 0 < A * (z + B / (2 * A)) ^ 2 := by positivity
    linarith
  · unfold bestAltitude
    rw [fit_exact hf sample_mem.1 sample_mem.2.1 sample_mem.2.2 (by norm_num) (by norm_num) (by norm_num) hs]
    simp only [defaultZ]
    rw [if_neg (by positivity)]

/-- **Images that all look in the same direction** have no altitude: the quotient is by zero. -/
theorem C107_parallel (fit : List (ℝ × ℝ) → ℝ × ℝ × ℝ) (hf : LeastSquares fit) (l : List (Vec 3 × Vec 3)) (d : Vec 3) (hd : ∀ p ∈ l, p.2 = d) :
    bestAltitude fit l = none := by
  have hsp : ∀ (l : List ℝ) (t : ℝ), spread (l.map (· + t)) = spread l := by
    intro l t
    cases l with
    | nil => rfl
    | cons a l =>
      have h1 : ∀ (l : List ℝ) (a : ℝ), (l.map (· + t)).foldl max (a + t) = l.foldl max a + t := by
        intro l
        induction l with
        | nil => intro a; rfl
        | cons b l ih => intro a; simp only [List.map_cons, List.foldl_cons, max_add_add_right, ih]
      have h2 : ∀ (l : List ℝ) (a : ℝ), (l.map (· + t)).foldl min (a + t) = l.foldl min a + t := by
        intro l
        induction l with
        | nil => intro a; rfl
        | cons b l ih => intro a; simp only [List.map_cons, List.foldl_cons, min_add_add_right, ih]
      simp only [List.map_cons, spread, h1, h2]
      ring
  have hcomp : ∀ (k : Fin 3) (z : ℝ), spread (l.map (fun p => (p.1 + (z / defaultZ) • p.2) k)) = spread (l.map (fun p => p.1 k)) := by
    intro k z
    rw [← hsp (l.map (fun p => p.1 k)) (z * d k), List.map_map]
    congr 1
    apply List.map_congr_left
    intro p hp
    simp [defaultZ, hd p hp]
  obtain ⟨C, hC⟩ : ∃ C : ℝ, C = spread (l.map (fun p => p.1 0)) ^ 2 + spread (l.map (fun p => p.1 1)) ^ 2 := ⟨_, rfl⟩
  have hs : ∀ z : ℝ, sizeAt l z = 0 * z ^ 2 + 0 * z + C := by
    intro z
    unfold sizeAt
    rw [hcomp, hcomp, hC]
    ring
  unfold bestAltitude
  rw [fit_exact hf sample_mem.1 sample_mem.2.1 sample_mem.2.2 (by norm_num) (by norm_num) (by norm_num) hs]
  simp

/-! ### The triangulation -/

theorem keys_set_new {V : Type} (m : Dict Id V) (k : Id) (v : V) (h : k ∉ m.keys) : (m.set k v).keys = m.keys ++ [k] := by
  rw [Dict.keys_set, if_neg h]

theorem locateAll_keys (topo : ℝ → ℝ → ℝ → Vec 3) (tags : Id → Tags) (images : List Id) (d d' : Dict Id (Vec 3 × Vec 3))
    (h : locateAll topo tags images d = .ok d') (hn : (d.keys ++ images).Nodup) :
    d'.keys = d.keys ++ images.filter (fun i => (tags i).gps.isSome) := by
  induction images generalizing d with
  | nil =>
    simp only [locateAll, Except.ok.injEq] at h
    subst h
    simp
  | cons a images ih =>
    unfold locateAll at h
    have hn1 : (d.keys ++ images).Nodup := hn.sublist (List.Sublist.append (List.Sublist.refl _) (List.sublist_cons_self _ _))
    have hna : a ∉ d.keys := fun e => (List.nodup_append.1 hn).2.2 a e a List.mem_cons_self rfl
    have hsome : ∀ o, locate topo (tags a) = .ok o → o.isSome = (tags a).gps.isSome := by
      intro o ho
      unfold locate at ho
      cases hg : (tags a).gps with
      | none => rw [hg] at ho; simp only [Except.ok.injEq] at ho; subst ho; rfl
      | some g =>
        rw [hg] at ho
        simp only at ho
        split at ho
        · simp at ho
        · split at ho
          · simp only [Except.ok.injEq] at ho; subst ho; rfl
          · split at ho
            · simp at ho
            · simp only [Except.ok.injEq] at ho; subst ho; rfl
    cases hl : locate topo (tags a) with
    | error e => rw [hl] at h; simp at h
    | ok o =>
      have hs := hsome o hl
      rw [hl] at h
      cases o with
      | none =>
        rw [ih d h hn1, List.filter_cons_of_neg (by rw [← hs]; simp)]
      | some p =>
        have hk := keys_set_new d a p hna
        rw [ih _ h (by rw [hk, List.append_assoc]; exact hn), hk, List.filter_cons_of_pos (by rw [← hs]; simp)]
        simp

theorem moved_keys (d : Dict Id (Vec 3 × Vec 3)) (a : ℝ) (images : List Id) (r r' : Dict Id (Vec 3)) (h : moved d a images r = .ok r')
    (hn : (r.keys ++ images).Nodup) : r'.keys = r.keys ++ images := by
  induction images generalizing r with
  | nil =>
    simp only [moved, Except.ok.injEq] at h
    subst h
    simp
  | cons b images ih =>
    unfold moved at h
    have hnb : b ∉ r.keys := fun e => (List.nodup_append.1 hn).2.2 b e b List.mem_cons_self rfl
    cases hl : d.get? b with
    | none => rw [hl] at h; simp at h
    | some p =>
      rw [hl] at h
      have hk := keys_set_new r b (p.1 + (a / defaultZ) • p.2) hnb
      rw [ih _ h (by rw [hk, List.append_assoc]; exact hn), hk]
      simp

/-- The points are in the order of the images that have one. -/
theorem representative_order {topo : ℝ → ℝ → ℝ → Vec 3} {fit : List (ℝ × ℝ) → ℝ × ℝ × ℝ} {tags : Id → Tags} {images : List Id}
    {points : Dict Id (Vec 3)} (h : representative topo fit tags images = .ok points) (hn : images.Nodup) :
    points.keys = images.filter (fun i => (tags i).gps.isSome) := by
  unfold representative at h
  cases hl : locateAll topo tags images [] with
  | error e => rw [hl] at h; simp at h
  | ok d =>
    rw [hl] at h
    have hk := locateAll_keys topo tags images [] d hl (by simpa using hn)
    obtain ⟨h1, h2, h3⟩ := locateAll_spec topo tags images [] d hl Dict.wf_nil
    simp only at h
    split at h
    · cases ha : bestAltitude fit d.vals with
      | none => rw [ha] at h; simp at h
      | some a =>
        rw [ha] at h
        rw [moved_keys d a images [] points h (by simpa using hn)]
        obtain ⟨m1, m2, m3⟩ := moved_spec d a images [] points h Dict.wf_nil
        symm
        simp only [Dict.keys_nil, List.nil_append]
        rw [List.filter_eq_self]
        intro i hi
        have := m2 i hi
        rw [← Dict.mem_keys_iff, hk] at this
        simp only [Dict.keys_nil, List.nil_append, List.mem_filter] at this
        exact this.2
    · simp only [Except.ok.injEq] at h
      subst h
      rw [Dict.keys_mapVals, hk]
      simp

theorem vals_of_keys {V : Type} (m : Dict Id V) (hw : m.Wf) (f : V → ℝ × ℝ) (z : ℝ × ℝ) :
    m.vals.map f = m.keys.map (fun i => ((m.get? i).map f).getD z) := by
  unfold Dict.vals Dict.keys
  rw [List.map_map, List.map_map]
  apply List.map_congr_left
  rintro ⟨k, v⟩ hp
  simp [Dict.get?_of_mem hw hp]

/-- For the triangulation: when every image has a position, row after row the horizontal coordinates of the images. -/
theorem C107_graph (topo : ℝ → ℝ → ℝ → Vec 3) (fit : List (ℝ × ℝ) → ℝ × ℝ × ℝ) (tags : Id → Tags) (images : List Id) (hn : images.Nodup)
    (points : Dict Id (Vec 3)) (h : representative topo fit tags images = .ok points) (hg : ∀ i ∈ images, (tags i).gps ≠ none) :
    ∀ (k : ℕ) (i : Id), images[k]? = some i → ∃ p, points.get? i = some p ∧ (graphRows images points)[k]? = some (p 0, p 1) := by
  obtain ⟨hw, -⟩ := representative_keys h
  have hk := representative_order h hn
  rw [List.filter_eq_self.2 (fun i hi => Option.isSome_iff_ne_none.2 (hg i hi))] at hk
  intro k i hi
  have hmem := List.mem_of_getElem? hi
  obtain ⟨p, hp⟩ := Option.isSome_iff_exists.1 ((Dict.mem_keys_iff points i).1 (hk ▸ hmem))
  refine ⟨p, hp, ?_⟩
  unfold graphRows
  rw [vals_of_keys points hw _ (0, 0), hk, ← Dict.length_eq_keys, hk, Nat.sub_self]
  simp [hi, hp]

/-- **One image without position and the rows shift**: the next image's point stands in its row, and the last row is the origin. -/
theorem C107_graph_shift (topo : ℝ → ℝ → ℝ → Vec 3) (fit : List (ℝ × ℝ) → ℝ × ℝ × ℝ) (tags : Id → Tags) (l₁ l₂ : List Id) (x y : Id)
    (hn : (l₁ ++ x :: y :: l₂).Nodup) (points : Dict Id (Vec 3)) (h : representative topo fit tags (l₁ ++ x :: y :: l₂) = .ok points)
    (hx : (tags x).gps = none) (hg : ∀ i ∈ l₁ ++ y :: l₂, (tags i).gps ≠ none) :
    (∃ q, points.get? y = some q ∧ (graphRows (l₁ ++ x :: y :: l₂) points)[l₁.length]? = some (q 0, q 1)) ∧
      (graphRows (l₁ ++ x :: y :: l₂) points)[(l₁ ++ y :: l₂).length]? = some (0, 0) := by
  obtain ⟨hw, -⟩ := representative_keys h
  have hk := representative_order h hn
  have hf : (l₁ ++ x :: y :: l₂).filter (fun i => (tags i).gps.isSome) = l₁ ++ y :: l₂ := by
    rw [List.filter_append, List.filter_cons_of_neg (by simp [hx]), ← List.filter_append]
    exact List.filter_eq_self.2 (fun i hi => Option.isSome_iff_ne_none.2 (hg i hi))
  rw [hf] at hk
  obtain ⟨q, hq⟩ := Option.isSome_iff_exists.1 ((Dict.mem_keys_iff points y).1 (hk ▸ (by simp)))
  have hrows : graphRows (l₁ ++ x :: y :: l₂) points = (l₁ ++ y :: l₂).map (fun i => ((points.get? i).map (fun p => (p 0, p 1))).getD (0, 0)) ++ [(0, 0)] := by
    unfold graphRows
    rw [vals_of_keys points hw _ (0, 0), hk, ← Dict.length_eq_keys, hk]
    congr 1
    have : (l₁ ++ x :: y :: l₂).length - (l₁ ++ y :: l₂).length = 1 := by simp; omega
    rw [this]
    rfl
  refine ⟨⟨q, hq, ?_⟩, ?_⟩
  · rw [hrows]
    rw [List.getElem?_append_left (by simp)]
    simp [hq]
  · rw [hrows, List.getElem?_append_right (by simp)]
    simp

/-! ### Candidates for words and descriptors -/

theorem preemptStep_get (refs : List Id) (d : Dict Id (List Id)) (p : Id × Id) (r x : Id) :
    x ∈ ((preemptStep refs d p).get? r).getD [] ↔ x ∈ (d.get? r).getD [] ∨ (r ∈ refs ∧ (p = (r, x) ∨ p = (x, r))) := by
  obtain ⟨a, b⟩ := p
  unfold preemptStep
  simp only [Prod.mk.injEq]
  by_cases ha : a ∈ refs <;> by_cases hb : b ∈ refs <;> simp only [ha, hb, if_true, if_false, Dict.get?_set] <;>
    by_cases e1 : b = r <;> by_cases e2 : a = r <;> simp_all [or_assoc, or_comm, or_left_comm, eq_comm]

theorem preemptStep_some (refs : List Id) (d : Dict Id (List Id)) (p : Id × Id) (r : Id) :
    ((preemptStep refs d p).get? r).isSome ↔ (d.get? r).isSome ∨ (r ∈ refs ∧ (p.1 = r ∨ p.2 = r)) := by
  obtain ⟨a, b⟩ := p
  unfold preemptStep
  by_cases ha : a ∈ refs <;> by_cases hb : b ∈ refs <;> simp only [ha, hb, if_true, if_false, Dict.get?_set] <;>
    by_cases e1 : b = r <;> by_cases e2 : a = r <;> simp_all

/-- With positions: the candidates of an image are those it was paired with; an image without pairs has no entry at all; and what is loaded are
the images with candidates, and the candidates. -/
theorem C107_preempt (refs cand : List Id) (ps : List (Id × Id)) (r x : Id) :
    (x ∈ (((preempt refs cand (some ps)).1).get? r).getD [] ↔ r ∈ refs ∧ ((r, x) ∈ ps ∨ (x, r) ∈ ps)) ∧
    (((preempt refs cand (some ps)).1).get? r = none ↔ r ∉ refs ∨ ∀ p ∈ ps, p.1 ≠ r ∧ p.2 ≠ r) ∧
    (x ∈ (preempt refs cand (some ps)).2 ↔ ∃ p ∈ ps, (p.1 ∈ refs ∨ p.2 ∈ refs) ∧ (p.1 = x ∨ p.2 = x)) := by
  have h1 : ∀ (ps : List (Id × Id)) (d : Dict Id (List Id)) (r x : Id), x ∈ ((ps.foldl (preemptStep refs) d).get? r).getD [] ↔
      x ∈ (d.get? r).getD [] ∨ (r ∈ refs ∧ ((r, x) ∈ ps ∨ (x, r) ∈ ps)) := by
    intro ps
    induction ps with
    | nil => intro d r x; simp
    | cons p ps ih =>
      intro d r x
      rw [List.foldl_cons, ih, preemptStep_get]
      simp only [List.mem_cons]
      constructor
      · rintro ((h | ⟨h, h' | h'⟩) | ⟨h, h' | h'⟩)
        · exact Or.inl h
        · exact Or.inr ⟨h, Or.inl (Or.inl h'.symm)⟩
        · exact Or.inr ⟨h, Or.inr (Or.inl h'.symm)⟩
        · exact Or.inr ⟨h, Or.inl (Or.inr h')⟩
        · exact Or.inr ⟨h, Or.inr (Or.inr h')⟩
      · rintro (h | ⟨h, (h' | h') | (h' | h')⟩)
        · exact Or.inl (Or.inl h)
        · exact Or.inl (Or.inr ⟨h, Or.inl h'.symm⟩)
        · exact Or.inr ⟨h, Or.inl h'⟩
        · exact Or.inl (Or.inr ⟨h, Or.inr h'.symm⟩)
        · exact Or.inr ⟨h, Or.inr h'⟩
  have h2 : ∀ (ps : List (Id × Id)) (d : Dict Id (List Id)) (r : Id), ((ps.foldl (preemptStep refs) d).get? r).isSome ↔
      (d.get? r).isSome ∨ (r ∈ refs ∧ ∃ p ∈ ps, p.1 = r ∨ p.2 = r) := by
    intro ps
    induction ps with
    | nil => intro d r; simp
    | cons p ps ih =>
      intro d r
      rw [List.foldl_cons, ih, preemptStep_some]
      simp only [List.mem_cons, exists_eq_or_imp]
      rw [or_assoc, ← and_or_left]
  have hwf : ∀ (ps : List (Id × Id)) (d : Dict Id (List Id)), d.Wf → (ps.foldl (preemptStep refs) d).Wf := by
    intro ps
    induction ps with
    | nil => intro d h; exact h
    | cons p ps ih =>
      intro d h
      rw [List.foldl_cons]
      apply ih
      unfold preemptStep
      simp only
      split <;> split <;> first | exact Dict.wf_set (Dict.wf_set h _ _) _ _ | exact Dict.wf_set h _ _ | exact h
  have e : (preempt refs cand (some ps)).1 = ps.foldl (preemptStep refs) [] := rfl
  have hget := h1 ps []
  simp only [Dict.get?_nil, Option.getD_none, List.not_mem_nil, false_or] at hget
  have hsm := h2 ps []
  simp only [Dict.get?_nil, Option.isSome_none, Bool.false_eq_true, false_or] at hsm
  refine ⟨by rw [e]; exact hget r x, ?_, ?_⟩
  · rw [e, ← Option.not_isSome_iff_eq_none, hsm r]
    constructor
    · intro h
      by_cases hr : r ∈ refs
      · right
        intro p hp
        constructor <;> (intro e'; exact h ⟨hr, p, hp, by simp [e']⟩)
      · exact Or.inl hr
    · rintro (h | h) ⟨hr, p, hp, h'⟩
      · exact h hr
      · rcases h' with h' | h'
        · exact (h p hp).1 h'
        · exact (h p hp).2 h'
  · have e2 : (preempt refs cand (some ps)).2 = (ps.foldl (preemptStep refs) []).keys ++ (ps.foldl (preemptStep refs) []).vals.flatten := rfl
    rw [e2, List.mem_append, Dict.mem_keys_iff, hsm x, List.mem_flatten]
    have hv : (∃ l ∈ (ps.foldl (preemptStep refs) []).vals, x ∈ l) ↔ ∃ r, r ∈ refs ∧ ((r, x) ∈ ps ∨ (x, r) ∈ ps) := by
      constructor
      · rintro ⟨l, hl, hx⟩
        obtain ⟨⟨k, v⟩, hkv, rfl⟩ := List.mem_map.1 hl
        refine ⟨k, (hget k x).1 ?_⟩
        rw [Dict.get?_of_mem (hwf ps [] Dict.wf_nil) hkv]
        exact hx
      · rintro ⟨r, hr⟩
        have := (hget r x).2 hr
        cases hg : (ps.foldl (preemptStep refs) []).get? r with
        | none => rw [hg] at this; simp at this
        | some l =>
          rw [hg] at this
          exact ⟨l, List.mem_map.2 ⟨(r, l), Dict.mem_of_get? hg, rfl⟩, this⟩
    rw [hv]
    constructor
    · rintro (⟨hr, p, hp, h⟩ | ⟨r, hr, h | h⟩)
      · refine ⟨p, hp, ?_, h⟩
        rcases h with rfl | rfl
        · exact Or.inl hr
        · exact Or.inr hr
      · exact ⟨(r, x), h, Or.inl hr, Or.inr rfl⟩
      · exact ⟨(x, r), h, Or.inr hr, Or.inl rfl⟩
    · rintro ⟨⟨a, b⟩, hp, h, h'⟩
      simp only at h h'
      rcases h' with rfl | rfl
      · rcases h with h | h
        · exact Or.inl ⟨h, _, hp, Or.inl rfl⟩
        · exact Or.inr ⟨b, h, Or.inr hp⟩
      · rcases h with h | h
        · exact Or.inr ⟨a, h, Or.inl hp⟩
        · exact Or.inl ⟨h, _, hp, Or.inr rfl⟩

/-- Without positions every image has all candidates. -/
theorem C107_preempt_all (refs cand : List Id) (r : Id) :
    ((preempt refs cand none).1).get? r = if r ∈ refs then some cand else none := by
  have : ∀ (refs : List Id) (d : Dict Id (List Id)), (refs.foldl (fun d i => d.set i cand) d).get? r = if r ∈ refs then some cand else d.get? r := by
    intro refs
    induction refs with
    | nil => intro d; simp
    | cons a refs ih =>
      intro d
      rw [List.foldl_cons, ih, Dict.get?_set]
      by_cases e : r = a
      · subst e; simp
      · simp [e, Ne.symm e]
  have h2 := this refs []
  simp only [Dict.get?_nil] at h2
  exact h2

/-- **When no pair is near enough**, words have nothing to compare while descriptors (VLAD) compare everything; as soon as one pair is, an image
without neighbours is compared with nothing there too. -/
theorem C107_preempt_none (refs cand : List Id) (r : Id) (hr : r ∈ refs) :
    ((preempt refs cand (some [])).1).get? r = none ∧ ((preemptVlad refs cand (some [])).1).get? r = some cand ∧
    (preemptVlad refs cand (some [])).2 = refs ++ cand ∧
    ∀ ps : List (Id × Id), (∃ p ∈ ps, p.1 ∈ refs ∨ p.2 ∈ refs) → (∀ p ∈ ps, p.1 ≠ r ∧ p.2 ≠ r) →
      ((preemptVlad refs cand (some ps)).1).get? r = none := by
  refine ⟨rfl, ?_, rfl, ?_⟩
  · have := C107_preempt_all refs cand r
    rw [if_pos hr] at this
    exact this
  · rintro ps ⟨p, hp, hpr⟩ hno
    have hne : ((preempt refs cand (some ps)).1).length ≠ 0 := by
      intro h0
      have hnil := List.length_eq_zero_iff.1 h0
      rcases hpr with h | h
      · have := ((C107_preempt refs cand ps p.1 p.1).2.1).1 (by rw [hnil]; rfl)
        rcases this with h' | h'
        · exact h' h
        · exact (h' p hp).1 rfl
      · have := ((C107_preempt refs cand ps p.2 p.2).2.1).1 (by rw [hnil]; rfl)
        rcases this with h' | h'
        · exact h' h
        · exact (h' p hp).2 rfl
    unfold preemptVlad
    simp only
    rw [if_neg hne]
    exact ((C107_preempt refs cand ps r r).2.1).2 (Or.inr hno)

/-! ### The assumptions can be met -/

open Classical in
/-- A tree: the rows below the bound, sorted by distance. -/
noncomputable def exTree (d : ℕ → ℝ) (n : ℕ) (below : ℝ → Prop) (k : ℕ) : List ℕ :=
  let s := ((List.range n).filter (fun j => decide (below (d j)))).insertionSort (fun i j => d i ≤ d j)
  s.take k ++ List.replicate (k - s.length) n

theorem exTree_nearest (d : ℕ → ℝ) (n : ℕ) (below : ℝ → Prop) (k : ℕ) : Nearest d n below k (exTree d n below k) := by
  classical
  obtain ⟨s, hs⟩ : ∃ s : List ℕ, s = ((List.range n).filter (fun j => decide (below (d j)))).insertionSort (fun i j => d i ≤ d j) := ⟨_, rfl⟩
  have hmem : ∀ j, j ∈ s ↔ j < n ∧ below (d j) := by
    intro j
    rw [hs, List.mem_insertionSort]
    simp
  have hnd : s.Nodup := by
    rw [hs, List.Perm.nodup_iff (List.perm_insertionSort _ _)]
    exact List.nodup_range.filter _
  have hsort : s.Pairwise (fun i j => d i ≤ d j) := by
    rw [hs]
    haveI : Std.Total (fun i j : ℕ => d i ≤ d j) := ⟨fun i j => le_total (d i) (d j)⟩
    haveI : IsTrans ℕ (fun i j : ℕ => d i ≤ d j) := ⟨fun i j k h1 h2 => le_trans h1 h2⟩
    exact List.pairwise_insertionSort _ _
  have he : exTree d n below k = s.take k ++ List.replicate (k - s.length) n := by
    unfold exTree
    rw [hs]
  refine ⟨?_, ?_, ?_, ?_⟩
  · rw [he, List.length_append, List.length_take, List.length_replicate]
    omega
  · rw [he, List.filter_append]
    have : (List.replicate (k - s.length) n).filter (fun j => decide (j < n)) = [] := by
      rw [List.filter_eq_nil_iff]
      intro j hj
      rw [List.eq_of_mem_replicate hj]
      simp
    rw [this, List.append_nil]
    exact (hnd.sublist (List.take_sublist _ _)).filter _
  · intro j hj hjn
    rw [he, List.mem_append] at hj
    rcases hj with hj | hj
    · exact ((hmem j).1 (List.mem_of_mem_take hj)).2
    · rw [List.eq_of_mem_replicate hj] at hjn
      exact absurd hjn (lt_irrefl _)
  · intro i hi hb hni j hj
    rw [he, List.mem_append] at hni hj
    push Not at hni
    have his : i ∈ s := (hmem i).2 ⟨hi, hb⟩
    have hid : i ∈ s.drop k := by
      rw [← List.take_append_drop k s, List.mem_append] at his
      exact his.resolve_left hni.1
    have hk : k < s.length := by
      by_contra h
      rw [List.drop_eq_nil_of_le (not_lt.1 h)] at hid
      simp at hid
    rcases hj with hj | hj
    · refine ⟨((hmem j).1 (List.mem_of_mem_take hj)).1, ?_⟩
      rw [← List.take_append_drop k s, List.pairwise_append] at hsort
      exact hsort.2.2 j hj i hid
    · rw [Nat.sub_eq_zero_of_le hk.le] at hj
      simp at hj

/-- The tree of the positions. -/
noncomputable def exTree3 (rows : ℕ → Vec 3) (n : ℕ) (x : Vec 3) (k : ℕ) (b : ℝ) : List ℕ :=
  exTree (fun j => apart (rows j) x) n (fun d => d < b) k

theorem exTree3_nearest (rows : ℕ → Vec 3) (n : ℕ) (x : Vec 3) (k : ℕ) (b : ℝ) :
    Nearest (fun j => apart (rows j) x) n (fun d => d < b) k (exTree3 rows n x k b) := exTree_nearest _ _ _ _

/-- Coordinates that are the angles. -/
def exTopo (lat lon alt : ℝ) : Vec 3 := ![lat, lon, alt]

/-- Image `i` at given distance on a line. -/
def exTags (at' : ℕ → ℝ) (i : ℕ) : Tags := ⟨some (at' i, 0), none, false⟩

theorem exPoints (fit : List (ℝ × ℝ) → ℝ × ℝ × ℝ) (at' : ℕ → ℝ) (images : List ℕ) :
    ∃ points, representative exTopo fit (exTags at') images = .ok points ∧ ∀ i ∈ images, points.get? i = some ![at' i, 0, 0] := by
  obtain ⟨points, h1, h2⟩ := C107_points exTopo fit (exTags at') images (fun i _ => ⟨rfl, rfl⟩)
  exact ⟨points, h1, fun i hi => by rw [h2, if_pos hi]; rfl⟩

theorem apart_line (a b : ℝ) : apart ![a, 0, 0] ![b, 0, 0] = |a - b| := by
  unfold apart AlignPrior.norm
  simp [Fin.sum_univ_three, ← sq, Real.sqrt_sq_eq_abs]

theorem apart_zero (b : ℝ) : apart 0 ![b, 0, 0] = |b| := by
  have : (0 : Vec 3) = ![0, 0, 0] := by ext i; fin_cases i <;> rfl
  rw [this, apart_line]
  simp

/-- Three images on a line: the first is paired with the second. -/
example (fit : List (ℝ × ℝ) → ℝ × ℝ × ℝ) (out : List (ℕ × ℕ))
    (ho : byDistance exTopo fit (exTags (fun i => ((i : ℝ) - 1) ^ 2)) exTree3 [1] [1, 2, 3] 1 0 = .ok out) : (1, 2) ∈ out := by
  obtain ⟨points, hp, hpt⟩ := exPoints fit (fun i => ((i : ℝ) - 1) ^ 2) ([1, 2, 3] ++ [1])
  by_contra hnot
  have h := C107_distance exTopo fit _ exTree3 exTree3_nearest [1] [1, 2, 3] (by decide) 1 (by norm_num) 0 (Or.inl (by norm_num)) points hp
    (fun i hi => by rw [hpt i hi]; rfl) out ho 1 2 (by simp) (by simp) (by decide) _ _ (hpt 1 (by simp)) (hpt 2 (by simp))
    (by rw [apart_line, if_pos rfl]; norm_num) hnot
  rcases h with ⟨near, h1, h2, h3⟩ | ⟨⟨i, hi, hn⟩, -⟩
  · obtain ⟨x, rfl⟩ := List.length_eq_one_iff.1 (by simpa using h2)
    obtain ⟨hx, n1, n2, s, hs, hle⟩ := h3 x (by simp)
    have hx3 : x = 3 := by
      simp only [List.mem_cons, List.not_mem_nil, or_false] at hx
      rcases hx with e | e | e
      · exact absurd e n1
      · exact absurd e n2
      · exact e
    subst hx3
    rw [hpt 3 (by simp)] at hs
    simp only [Option.some.injEq] at hs
    rw [← hs, apart_line, apart_line] at hle
    norm_num at hle
  · simp only [List.mem_singleton] at hi
    subst hi
    simp at hn

/-- Two images 2 apart, the one to match 1 from the origin: no pair although any distance is allowed. -/
example (fit : List (ℝ × ℝ) → ℝ × ℝ × ℝ) : byDistance exTopo fit (exTags (fun i => 2 * (i : ℝ) - 1)) exTree3 [1] [2] 1 0 = .ok [] := by
  obtain ⟨points, hp, hpt⟩ := exPoints fit (fun i => 2 * (i : ℝ) - 1) ([2] ++ [1])
  refine C107_phantom exTopo fit _ exTree3 exTree3_nearest [1] [2] (by decide) (by decide) (by decide) 1 (by norm_num) (by simp) 0 points hp
    (fun i hi => by rw [hpt i hi]; rfl) ?_
  intro r hr p hpr
  simp only [List.mem_singleton] at hr
  subst hr
  rw [hpt 1 (by simp)] at hpr
  simp only [Option.some.injEq] at hpr
  subst hpr
  rw [apart_zero, if_pos rfl]
  refine ⟨by norm_num, ?_⟩
  intro c hc q hq
  simp only [List.mem_singleton] at hc
  subst hc
  rw [hpt 2 (by simp)] at hq
  simp only [Option.some.injEq] at hq
  subst hq
  rw [apart_line]
  norm_num

/-- Four images of which the second has no position. -/
example (fit : List (ℝ × ℝ) → ℝ × ℝ × ℝ) : ∃ points, representative exTopo fit
    (fun i : ℕ => if i = 2 then ⟨none, none, false⟩ else ⟨some ((i : ℝ), 1), none, false⟩) [1, 2, 3, 4] = .ok points ∧
    (graphRows [1, 2, 3, 4] points)[1]? = some (3, 1) ∧ (graphRows [1, 2, 3, 4] points)[3]? = some (0, 0) := by
  obtain ⟨points, hp, hpt⟩ := C107_points exTopo fit
    (fun i : ℕ => if i = 2 then ⟨none, none, false⟩ else ⟨some ((i : ℝ), 1), none, false⟩) [1, 2, 3, 4] (by
      intro i _
      split <;> exact ⟨rfl, rfl⟩)
  obtain ⟨⟨q, h1, h2⟩, h3⟩ := C107_graph_shift exTopo fit _ [1] [4] 2 3 (by decide) points hp rfl (by
    intro i hi
    have : i ≠ 2 := by
      rintro rfl
      simp at hi
    simp [this])
  refine ⟨points, hp, ?_, h3⟩
  have hq := hpt 3
  rw [h1] at hq
  simp [exTopo] at hq
  have h2' : (graphRows [1, 2, 3, 4] points)[1]? = some (q 0, q 1) := h2
  rw [h2', hq]
  simp

/-- Least squares polynomials exist. -/
theorem leastSquares_exists : ∃ fit : List (ℝ × ℝ) → ℝ × ℝ × ℝ, LeastSquares fit := by
  suffices h : ∀ samples : List (ℝ × ℝ), ∃ c : ℝ × ℝ × ℝ, ∀ c', squares samples c ≤ squares samples c' by
    choose f hf using h
    exact ⟨f, hf⟩
  intro samples
  let L : (ℝ × ℝ × ℝ) →ₗ[ℝ] EuclideanSpace ℝ (Fin samples.length) :=
    { toFun := fun c => WithLp.toLp 2 (fun i => c.1 * (samples[i]).1 ^ 2 + c.2.1 * (samples[i]).1 + c.2.2)
      map_add' := by intro a b; ext i; simp; ring
      map_smul' := by intro k a; ext i; simp; ring }
  let y : EuclideanSpace ℝ (Fin samples.length) := WithLp.toLp 2 (fun i => (samples[i]).2)
  have hsq : ∀ c, squares samples c = ‖y - L c‖ ^ 2 := by
    intro c
    rw [EuclideanSpace.norm_sq_eq]
    unfold squares
    rw [← List.sum_ofFn]
    congr 1
    apply List.ext_getElem
    · simp
    · intro k h1 h2
      simp [L, y]
      ring
  obtain ⟨v, hv, hmin⟩ := Submodule.exists_norm_eq_iInf_of_complete_subspace (LinearMap.range L)
    (LinearMap.range L).complete_of_finiteDimensional y
  obtain ⟨c, rfl⟩ := hv
  refine ⟨c, fun c' => ?_⟩
  rw [hsq, hsq]
  have hle : ‖y - L c‖ ≤ ‖y - L c'‖ := by
    rw [hmin]
    exact ciInf_le ⟨0, by rintro _ ⟨w, rfl⟩; exact norm_nonneg _⟩ (⟨L c', ⟨c', rfl⟩⟩ : LinearMap.range L)
  exact pow_le_pow_left₀ (norm_nonneg _) hle 2

/-- Two images 100 apart that look at each other at 45 degrees: the altitude is 50. -/
example : ∃ fit, LeastSquares fit ∧ bestAltitude fit [(![0, 0, 0], ![1, 0, 1]), (![100, 0, 0], ![-1, 0, 1])] = some 50 := by
  obtain ⟨fit, hf⟩ := leastSquares_exists
  obtain ⟨e, h1, h2⟩ := C107_altitude_two fit hf ![0, 0, 0] ![1, 0, 1] ![100, 0, 0] ![-1, 0, 1] (by left; norm_num)
  have he : e = 50 := by
    by_contra hne
    have := h1 50 (Ne.symm hne)
    simp at this
    nlinarith [sq_nonneg (e - (100 + -e))]
  refine ⟨fit, hf, ?_⟩
  rw [h2, he]
  norm_num

end Verif.NearImages
