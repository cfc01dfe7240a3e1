import Verif.Spec.ExportText
import Verif.Model.Camera
import Verif.Base.Group
import Mathlib.Tactic.Linarith
import Mathlib.Tactic.NormNum
import Mathlib.Tactic.FieldSimp
import Mathlib.Tactic.FinCases
import Mathlib.Tactic.LinearCombination

/-!
# C114 — Bundler and NVM files
-/
set_option linter.unusedSectionVars false
set_option linter.unusedSimpArgs false
set_option linter.unusedVariables false
namespace Verif.ExportText

variable {Id : Type} [DecidableEq Id]

/-! ### Loops -/

theorem fold_append {α β : Type} (f : α → Option (List β)) (g : List β → α → Option (List β)) (hg : ∀ acc x, g acc x = (f x).map fun l => acc ++ l)
    (L : List α) : ∀ acc : List β,
    (L.foldlM g acc = none ↔ ∃ x ∈ L, f x = none) ∧
    ∀ out, L.foldlM g acc = some out → ∃ ls, List.Forall₂ (fun x l => f x = some l) L ls ∧ out = acc ++ ls.flatten := by
  induction L with
  | nil =>
    intro acc
    refine ⟨by simp, fun out h => ⟨[], List.Forall₂.nil, ?_⟩⟩
    have : acc = out := by simpa using h
    simp [this]
  | cons x t ih =>
    intro acc
    rw [List.foldlM_cons, hg]
    cases hx : f x with
    | none => exact ⟨⟨fun _ => ⟨x, List.mem_cons_self, hx⟩, fun _ => rfl⟩, fun out h => absurd h (by simp)⟩
    | some l =>
      obtain ⟨i1, i2⟩ := ih (acc ++ l)
      constructor
      · refine i1.trans ?_
        constructor
        · rintro ⟨y, hy, h⟩; exact ⟨y, List.mem_cons_of_mem _ hy, h⟩
        · rintro ⟨y, hy, h⟩
          rcases List.mem_cons.1 hy with rfl | hy
          · rw [hx] at h; exact absurd h (by simp)
          · exact ⟨y, hy, h⟩
      · intro out h
        obtain ⟨ls, h1, h2⟩ := i2 out h
        exact ⟨l :: ls, List.Forall₂.cons hx h1, by rw [h2, List.flatten_cons, List.append_assoc]⟩

theorem forall₂_filter {α β : Type} (p : α → Bool) (P : α → β → Prop) (L : List α) (ls : List (List β))
    (h : List.Forall₂ (fun x l => (p x = true ∧ ∃ y, P x y ∧ l = [y]) ∨ (p x = false ∧ l = [])) L ls) : List.Forall₂ P (L.filter p) ls.flatten := by
  induction h with
  | nil => exact List.Forall₂.nil
  | cons ha _ ih =>
    rcases ha with ⟨h1, y, h2, rfl⟩ | ⟨h1, rfl⟩
    · rw [List.filter_cons_of_pos h1]; exact List.Forall₂.cons h2 ih
    · rw [List.filter_cons_of_neg (by simp [h1])]; exact ih

/-! ### Bundler -/

theorem order_fold (L : List Id) : ∀ (k : ℕ) (a : Dict Id ℕ) (x : Id),
    (∀ i, Dict.get? ((L.zipIdx k).foldl (fun (a : Dict Id ℕ) e => a.set e.1 e.2) a) x = some i → (k ≤ i ∧ L[i - k]? = some x) ∨ (x ∉ L ∧ a.get? x = some i)) ∧
    (Dict.get? ((L.zipIdx k).foldl (fun (a : Dict Id ℕ) e => a.set e.1 e.2) a) x = none ↔ x ∉ L ∧ a.get? x = none) := by
  induction L with
  | nil => intro k a x; simp
  | cons y t ih =>
    intro k a x
    rw [List.zipIdx_cons, List.foldl_cons]
    obtain ⟨i1, i2⟩ := ih (k + 1) (a.set y k) x
    constructor
    · intro i h
      rcases i1 i h with ⟨h1, h2⟩ | ⟨h1, h2⟩
      · left
        refine ⟨by omega, ?_⟩
        rw [show i - k = (i - (k + 1)) + 1 by omega, List.getElem?_cons_succ]; exact h2
      · rw [Dict.get?_set] at h2
        by_cases e : y = x
        · rw [if_pos e] at h2
          obtain rfl := Option.some.inj h2
          left; exact ⟨le_refl _, by simp [e]⟩
        · rw [if_neg e] at h2
          right; exact ⟨by simp [h1]; exact fun h => e h.symm, h2⟩
    · rw [i2, Dict.get?_set]
      by_cases e : y = x
      · simp [e]
      · have e' : x ≠ y := fun h => e h.symm
        simp [e, e']

theorem order_some (images : List Id) (x : Id) (i : ℕ) (h : (shotsOrder images).get? x = some i) : images[i]? = some x := by
  rcases (order_fold images 0 [] x).1 i h with ⟨_, h⟩ | ⟨_, h⟩
  · simpa using h
  · exact absurd h (by simp)

theorem order_none (images : List Id) (x : Id) : (shotsOrder images).get? x = none ↔ x ∉ images := by
  unfold shotsOrder
  rw [(order_fold images 0 [] x).2]; simp

/-- The lines of an observation. -/
noncomputable def viewLines (r : Rec Id) (order : Dict Id ℕ) (e : Id × Obs) : Option (List (Line Id)) :=
  match r.shots.get? e.1 with
  | none => some []
  | some s =>
    match order.get? e.1 with
    | none => none
    | some i => some [[.int i, .int e.2.id, .num (e.2.x * (max s.width s.height : ℕ)), .num (-e.2.y * (max s.width s.height : ℕ))]]

theorem bundlerView_eq (r : Rec Id) (order : Dict Id ℕ) (acc : List (Line Id)) (e : Id × Obs) :
    bundlerView r order acc e = (viewLines r order e).map fun l => acc ++ l := by
  unfold bundlerView viewLines
  cases r.shots.get? e.1 with
  | none => simp
  | some s => cases order.get? e.1 <;> simp

/-- An observation of the tracks manager and the view in the file: index in the list of images, feature, position in pixels from the centre of the image with
y upwards. -/
def IsView (images : List Id) (r : Rec Id) (e : Id × Obs) (v : Spec.View) : Prop :=
  0 ≤ v.image ∧ images[v.image.toNat]? = some e.1 ∧ v.feature = e.2.id ∧
    ∃ s, r.shots.get? e.1 = some s ∧ v.x = e.2.x * max (s.width : ℝ) s.height ∧ v.y = -(e.2.y * max (s.width : ℝ) s.height)

/-- A point of the reconstruction and the point in the file: its views are the observations by shots of the reconstruction. -/
def IsPoint (images : List Id) (tm : TM Id Id Obs) (r : Rec Id) (p : Id × Point) (q : Spec.Pt) : Prop :=
  q.pos = p.2.coords ∧ (∀ i, q.color i = if 0 ≤ p.2.color i then ⌊p.2.color i⌋ else ⌈p.2.color i⌉) ∧
    ∃ d, tm.getTrackObservations p.1 = .ok d ∧ List.Forall₂ (IsView images r) (d.filter fun e => (r.shots.get? e.1).isSome) q.views

/-- An image of the list and the camera in the file: zeros for an image that is not in the reconstruction. -/
def IsCamera (r : Rec Id) (i : Id) (c : Spec.Camera) : Prop :=
  (r.shots.get? i = none → c = ⟨0, 0, 0, 0, 0⟩) ∧
  ∀ s, r.shots.get? i = some s → ∃ f k1 k2, s.focal = some f ∧ s.k1 = some k1 ∧ s.k2 = some k2 ∧
    c.f = f * max (s.width : ℝ) s.height ∧ c.k1 = k1 ∧ c.k2 = k2 ∧ c.R 0 = s.R 0 ∧ (∀ k, c.R 1 k = -s.R 1 k) ∧ (∀ k, c.R 2 k = -s.R 2 k) ∧
    c.t 0 = s.t 0 ∧ c.t 1 = -s.t 1 ∧ c.t 2 = -s.t 2

theorem read_triple (v : Fin 3 → ℝ) : Spec.triple (triple v : Line Id) = some v := by
  simp only [Spec.triple, triple, Spec.real, Option.some.injEq]
  funext i; fin_cases i <;> rfl

theorem read_color (c : Fin 3 → ℝ) : ∃ k, Spec.color (colorLine c : Line Id) = some k ∧ ∀ i, k i = if 0 ≤ c i then ⌊c i⌋ else ⌈c i⌉ := by
  refine ⟨![pyInt (c 0), pyInt (c 1), pyInt (c 2)], rfl, fun i => ?_⟩
  fin_cases i <;> rfl

theorem cast_max (a b : ℕ) : ((max a b : ℕ) : ℝ) = max (a : ℝ) b := by push_cast; rfl

theorem read_image (r : Rec Id) (i : Id) (l : List (Line Id)) (h : bundlerImage r i = some l) (n : ℕ) (rest : List (Line Id))
    (cs : List Spec.Camera) (rest' : List (Line Id)) (hn : Spec.cameras n rest = some (cs, rest')) :
    ∃ c, IsCamera r i c ∧ Spec.cameras (n + 1) (l ++ rest) = some (c :: cs, rest') := by
  unfold bundlerImage at h
  cases hs : r.shots.get? i with
  | none =>
    rw [hs] at h
    obtain rfl := Option.some.inj h
    refine ⟨⟨0, 0, 0, 0, 0⟩, ⟨fun _ => rfl, fun s h => by rw [hs] at h; exact absurd h (by simp)⟩, ?_⟩
    have hz : Spec.triple ([.int 0, .int 0, .int 0] : Line Id) = some 0 := by
      simp only [Spec.triple, Spec.real, Option.some.injEq, Int.cast_zero]
      funext i; fin_cases i <;> rfl
    show Spec.cameras (n + 1) (_ :: _ :: _ :: _ :: _ :: rest) = _
    rw [Spec.cameras, hz, hn]
    simp only [Pi.zero_apply, Option.some.injEq, Prod.mk.injEq, List.cons.injEq, and_true, Spec.Camera.mk.injEq, true_and]
    funext i; fin_cases i <;> rfl
  | some s =>
    rw [hs] at h
    simp only [bundlerCamera] at h
    split at h
    · exact absurd h (by simp)
    · cases hf : s.focal with
      | none => rw [hf] at h; exact absurd h (by simp)
      | some f =>
        cases h1 : s.k1 with
        | none => rw [hf, h1] at h; exact absurd h (by simp)
        | some k1 =>
          cases h2 : s.k2 with
          | none => rw [hf, h1, h2] at h; exact absurd h (by simp)
          | some k2 =>
            rw [hf, h1, h2] at h
            obtain rfl := Option.some.inj h
            refine ⟨⟨f * (max s.width s.height : ℕ), k1, k2, ![flip s.R 0, flip s.R 1, flip s.R 2], flip s.t⟩,
              ⟨fun h => by rw [hs] at h; exact absurd h (by simp), fun s' hs' => ?_⟩, ?_⟩
            · rw [hs] at hs'
              obtain rfl := Option.some.inj hs'
              refine ⟨f, k1, k2, hf, h1, h2, by rw [cast_max], rfl, rfl, ?_, ?_, ?_, ?_, ?_, ?_⟩ <;> first | rfl | (intro k; rfl)
            · have ht : Spec.triple ([.num (f * (max s.width s.height : ℕ)), .num k1, .num k2] : Line Id) = some ![f * (max s.width s.height : ℕ), k1, k2] := rfl
              show Spec.cameras (n + 1) (_ :: _ :: _ :: _ :: _ :: rest) = _
              rw [Spec.cameras, ht, hn, read_triple, read_triple, read_triple, read_triple]
              rfl

theorem read_cameras (r : Rec Id) (images : List Id) (ls : List (List (Line Id))) (h : List.Forall₂ (fun x l => bundlerImage r x = some l) images ls)
    (rest : List (Line Id)) : ∃ cs, List.Forall₂ (IsCamera r) images cs ∧ Spec.cameras images.length (ls.flatten ++ rest) = some (cs, rest) := by
  induction h with
  | nil => exact ⟨[], List.Forall₂.nil, rfl⟩
  | cons ha _ ih =>
    obtain ⟨cs, h1, h2⟩ := ih
    obtain ⟨c, h3, h4⟩ := read_image r _ _ ha _ _ cs rest h2
    refine ⟨c :: cs, List.Forall₂.cons h3 h1, ?_⟩
    rw [List.flatten_cons, List.append_assoc, List.length_cons]; exact h4

theorem read_views (images : List Id) (r : Rec Id) (d : List (Id × Obs)) (ls : List (List (Line Id)))
    (h : List.Forall₂ (fun e l => viewLines r (shotsOrder images) e = some l) d ls) :
    ∃ vs, List.Forall₂ (IsView images r) (d.filter fun e => (r.shots.get? e.1).isSome) vs ∧ Spec.views ls.flatten.length ls.flatten.flatten = some vs := by
  induction h with
  | nil => exact ⟨[], List.Forall₂.nil, rfl⟩
  | @cons e l t lt ha _ ih =>
    obtain ⟨vs, h1, h2⟩ := ih
    unfold viewLines at ha
    cases hs : r.shots.get? e.1 with
    | none =>
      rw [hs] at ha
      obtain rfl := Option.some.inj ha
      refine ⟨vs, ?_, ?_⟩
      · rw [List.filter_cons_of_neg (by simp [hs])]; exact h1
      · simpa using h2
    | some s =>
      rw [hs] at ha
      simp only at ha
      cases ho : (shotsOrder images).get? e.1 with
      | none => rw [ho] at ha; exact absurd ha (by simp)
      | some i =>
        rw [ho] at ha
        obtain rfl := Option.some.inj ha
        refine ⟨⟨i, e.2.id, e.2.x * (max s.width s.height : ℕ), -e.2.y * (max s.width s.height : ℕ)⟩ :: vs, ?_, ?_⟩
        · rw [List.filter_cons_of_pos (by simp [hs])]
          refine List.Forall₂.cons ⟨Int.natCast_nonneg i, ?_, rfl, s, hs, by rw [cast_max], by rw [cast_max]; ring⟩ h1
          rw [Int.toNat_natCast]; exact order_some images e.1 i ho
        · simp only [List.flatten_cons, List.cons_append, List.nil_append, List.length_cons]
          rw [Spec.views, h2]
          rfl

theorem read_point (images : List Id) (tm : TM Id Id Obs) (r : Rec Id) (p : Id × Point) (l : List (Line Id))
    (h : bundlerPoint r tm (shotsOrder images) p = some l) (n : ℕ) (rest : List (Line Id)) (ps : List Spec.Pt) (hn : Spec.points n rest = some ps) :
    ∃ q, IsPoint images tm r p q ∧ Spec.points (n + 1) (l ++ rest) = some (q :: ps) := by
  unfold bundlerPoint at h
  cases hd : tm.getTrackObservations p.1 with
  | error e => rw [hd] at h; exact absurd h (by simp)
  | ok d =>
    rw [hd] at h
    simp only at h
    cases hv : d.foldlM (bundlerView r (shotsOrder images)) [] with
    | none => rw [hv] at h; exact absurd h (by simp)
    | some out =>
      rw [hv] at h
      obtain rfl := Option.some.inj h
      obtain ⟨ls, h1, h2⟩ := (fold_append _ _ (bundlerView_eq r (shotsOrder images)) d []).2 out hv
      rw [List.nil_append] at h2
      obtain ⟨vs, h3, h4⟩ := read_views images r d ls h1
      obtain ⟨k, hk1, hk2⟩ := read_color (Id := Id) p.2.color
      refine ⟨⟨p.2.coords, k, vs⟩, ⟨rfl, hk2, d, hd, h3⟩, ?_⟩
      show Spec.points (n + 1) (_ :: _ :: _ :: rest) = _
      have hl : Spec.viewLine (.int (out.length : ℤ) :: out.flatten : Line Id) = some vs := by rw [h2]; exact h4
      rw [Spec.points, read_triple, hk1, hl, hn]

theorem read_points (images : List Id) (tm : TM Id Id Obs) (r : Rec Id) (pts : List (Id × Point)) (ls : List (List (Line Id)))
    (h : List.Forall₂ (fun x l => bundlerPoint r tm (shotsOrder images) x = some l) pts ls) :
    ∃ ps, List.Forall₂ (IsPoint images tm r) pts ps ∧ Spec.points pts.length ls.flatten = some ps := by
  induction h with
  | nil => exact ⟨[], List.Forall₂.nil, rfl⟩
  | cons ha _ ih =>
    obtain ⟨ps, h1, h2⟩ := ih
    obtain ⟨q, h3, h4⟩ := read_point images tm r _ _ ha _ _ ps h2
    exact ⟨q :: ps, List.Forall₂.cons h3 h1, by rw [List.flatten_cons, List.length_cons]; exact h4⟩

/-- C114: a reader of the format finds in the exported file one camera for every image of the list, in order, and the points of the reconstruction with exactly the
observations by its shots. -/
theorem C114_bundler (images : List Id) (tm : TM Id Id Obs) (r : Rec Id) (ls : List (Line Id)) (h : bundler images tm r = some ls) :
    ∃ cs ps, Spec.bundler ls = some (cs, ps) ∧ List.Forall₂ (IsCamera r) images cs ∧ List.Forall₂ (IsPoint images tm r) r.points ps := by
  unfold bundler at h
  cases hc : images.foldlM (append (bundlerImage r)) [[.text "# Bundle file v0.3"], [.int images.length, .int r.points.length]] with
  | none => rw [hc] at h; exact absurd h (by simp)
  | some l1 =>
    rw [hc] at h
    simp only at h
    obtain ⟨a, a1, a2⟩ := (fold_append _ _ (fun _ _ => rfl) images _).2 l1 hc
    obtain ⟨b, b1, b2⟩ := (fold_append _ _ (fun _ _ => rfl) r.points _).2 ls h
    obtain ⟨ps, p1, p2⟩ := read_points images tm r r.points b b1
    obtain ⟨cs, c1, c2⟩ := read_cameras r images a a1 b.flatten
    refine ⟨cs, ps, ?_, c1, p1⟩
    rw [b2, a2, List.append_assoc]
    have hif : ∀ o : Option (List Spec.Camera × List Spec.Pt), (if "# Bundle file v0.3" = "# Bundle file v0.3" then o else none) = o := fun o => if_pos rfl
    refine (hif _).trans ?_
    show (match Spec.cameras images.length (a.flatten ++ b.flatten) with
      | some (cs, rest) => (Spec.points r.points.length rest).map fun ps => (cs, ps)
      | none => none) = _
    rw [c2]
    simp only
    rw [p2]
    rfl

/-- C114: exporting to Bundler fails exactly when an image of the list has a camera that is `brown` or has no focal length or no radial distortions, when a point is
not in the tracks manager, or when a shot of the reconstruction that observes a point is not in the list. -/
theorem C114_bundler_fails (images : List Id) (tm : TM Id Id Obs) (r : Rec Id) : bundler images tm r = none ↔
    (∃ i ∈ images, ∃ s, r.shots.get? i = some s ∧ (s.brown = true ∨ s.focal = none ∨ s.k1 = none ∨ s.k2 = none)) ∨
    ∃ p ∈ r.points, (∃ e, tm.getTrackObservations p.1 = .error e) ∨
      ∃ d, tm.getTrackObservations p.1 = .ok d ∧ ∃ e ∈ d, (r.shots.get? e.1).isSome ∧ e.1 ∉ images := by
  have hcam : ∀ i, bundlerImage r i = none ↔ ∃ s, r.shots.get? i = some s ∧ (s.brown = true ∨ s.focal = none ∨ s.k1 = none ∨ s.k2 = none) := by
    intro i
    unfold bundlerImage
    cases hs : r.shots.get? i with
    | none => simp
    | some s =>
      simp only [bundlerCamera]
      cases hb : s.brown with
      | true => simp [hb]
      | false =>
        cases hf : s.focal <;> cases h1 : s.k1 <;> cases h2 : s.k2 <;> simp [hb, hf, h1, h2]
  have hpt : ∀ p, bundlerPoint r tm (shotsOrder images) p = none ↔ (∃ e, tm.getTrackObservations p.1 = .error e) ∨
      ∃ d, tm.getTrackObservations p.1 = .ok d ∧ ∃ e ∈ d, (r.shots.get? e.1).isSome ∧ e.1 ∉ images := by
    intro p
    unfold bundlerPoint
    cases hd : tm.getTrackObservations p.1 with
    | error e => simp
    | ok d =>
      simp only [Except.ok.injEq, reduceCtorEq, exists_false, false_or, exists_eq_left']
      have key := (fold_append _ _ (bundlerView_eq r (shotsOrder images)) d []).1
      have hv : ∀ e, viewLines r (shotsOrder images) e = none ↔ (r.shots.get? e.1).isSome ∧ e.1 ∉ images := by
        intro e
        unfold viewLines
        cases hs : r.shots.get? e.1 with
        | none => simp
        | some s =>
          simp only [Option.isSome_some, true_and]
          rw [← order_none images e.1]
          cases (shotsOrder images).get? e.1 <;> simp
      simp only [hv] at key
      rw [← key]
      cases d.foldlM (bundlerView r (shotsOrder images)) [] <;> simp
  simp only [← hcam, ← hpt]
  unfold bundler
  have k1 := (fold_append (bundlerImage r) (append (bundlerImage r)) (fun _ _ => rfl) images ([[.text "# Bundle file v0.3"], [.int images.length, .int r.points.length]])).1
  rw [← k1]
  cases hc : images.foldlM (append (bundlerImage r)) [[.text "# Bundle file v0.3"], [.int images.length, .int r.points.length]] with
  | none => simp
  | some l1 =>
    have k2 := (fold_append (bundlerPoint r tm (shotsOrder images)) _ (fun _ _ => rfl) r.points l1).1
    simp only
    refine k2.trans ?_
    constructor
    · intro h; exact Or.inr h
    · rintro (h | h)
      · exact absurd h (by simp)
      · exact h

/-- C114: of undistorted reconstructions only the images of the first are listed, and the export fails when a later one has a point seen by a shot of its own. -/
theorem C114_bundler_undistorted (images : List Id) (tm : TM Id Id Obs) (r0 : Rec Id) (rest : List (Rec Id)) (r : Rec Id) (hr : r ∈ rest)
    (p : Id × Point) (hp : p ∈ r.points) (d : Dict Id Obs) (hd : tm.getTrackObservations p.1 = .ok d) (e : Id × Obs) (he : e ∈ d)
    (hs : (r.shots.get? e.1).isSome) (h0 : r0.shots.get? e.1 = none) : bundlerFiles true images tm (r0 :: rest) = none := by
  have h1 : bundler r0.shots.keys tm r = none := by
    rw [C114_bundler_fails]
    right
    exact ⟨p, hp, Or.inr ⟨d, hd, e, he, hs, (Dict.get?_eq_none_iff _ _).1 h0⟩⟩
  show (r0 :: rest).mapM (bundler r0.shots.keys tm) = none
  have h2 : ∀ L : List (Rec Id), r ∈ L → L.mapM (bundler r0.shots.keys tm) = none := by
    intro L
    induction L with
    | nil => intro h; exact absurd h (by simp)
    | cons a t ih =>
      intro h
      rw [List.mapM_cons]
      rcases List.mem_cons.1 h with rfl | h
      · rw [h1]; rfl
      · rw [ih h]
        cases bundler r0.shots.keys tm a <;> rfl
  exact h2 _ (List.mem_cons_of_mem _ hr)

/-- The parameters of a perspective camera, in the order of the code: `k1`, `k2`, focal length. -/
def perspectiveParams (f k1 k2 : ℝ) : Camera.Ptr := fun i => if i = 0 then k1 else if i = 1 then k2 else f

/-- C114: for a perspective camera the file says the same as the reconstruction: the exported position of an observation is where Bundler projects a point exactly
when the observation is where the camera of the shot projects it. -/
theorem C114_bundler_projection (r : Rec Id) (i : Id) (c : Spec.Camera) (hc : IsCamera r i c) (s : Shot) (hs : r.shots.get? i = some s) (f k1 k2 : ℝ)
    (hf : s.focal = some f) (h1 : s.k1 = some k1) (h2 : s.k2 = some k2) (hw : 0 < s.width) (x y : Fin 3 → ℝ)
    (hy : ∀ j, y j = s.R j 0 * x 0 + s.R j 1 * x 1 + s.R j 2 * x 2 + s.t j) (hz : y 2 ≠ 0) (a b : ℝ) :
    c.project x = (a * max (s.width : ℝ) s.height, -(b * max (s.width : ℝ) s.height)) ↔
      Camera.project .perspective (perspectiveParams f k1 k2) y = ![a, b] := by
  obtain ⟨f', k1', k2', e1, e2, e3, c1, c2, c3, c4, c5, c6, c7, c8, c9⟩ := hc.2 s hs
  rw [hf] at e1; rw [h1] at e2; rw [h2] at e3
  obtain rfl := Option.some.inj e1
  obtain rfl := Option.some.inj e2
  obtain rfl := Option.some.inj e3
  have hM : 0 < max (s.width : ℝ) s.height := lt_max_of_lt_left (by exact_mod_cast hw)
  obtain ⟨M, hMe⟩ : ∃ M, M = max (s.width : ℝ) s.height := ⟨_, rfl⟩
  rw [← hMe] at hM c1 ⊢
  have p0 : c.R 0 0 * x 0 + c.R 0 1 * x 1 + c.R 0 2 * x 2 + c.t 0 = y 0 := by rw [c4, c7, hy]
  have p1 : c.R 1 0 * x 0 + c.R 1 1 * x 1 + c.R 1 2 * x 2 + c.t 1 = -y 1 := by rw [c5, c5, c5, c8, hy]; ring
  have p2 : c.R 2 0 * x 0 + c.R 2 1 * x 1 + c.R 2 2 * x 2 + c.t 2 = -y 2 := by rw [c6, c6, c6, c9, hy]; ring
  have hproj : Camera.project .perspective (perspectiveParams f k1 k2) y =
      ![f * ((1 + ((y 0 / y 2) * (y 0 / y 2) + (y 1 / y 2) * (y 1 / y 2)) * (k1 + k2 * ((y 0 / y 2) * (y 0 / y 2) + (y 1 / y 2) * (y 1 / y 2)))) * (y 0 / y 2)),
        f * ((1 + ((y 0 / y 2) * (y 0 / y 2) + (y 1 / y 2) * (y 1 / y 2)) * (k1 + k2 * ((y 0 / y 2) * (y 0 / y 2) + (y 1 / y 2) * (y 1 / y 2)))) * (y 1 / y 2))] := by
    simp [Camera.project, Camera.camera, Camera.generic, Camera.compose, Camera.perspective, Camera.disto24, Camera.uniformScale, Camera.disto24Dist,
      Camera.sqNorm, Camera.Ptr.shift, perspectiveParams]
    constructor <;> left <;> ring
  rw [hproj]
  unfold Spec.Camera.project
  simp only [p0, p1, p2, c1, c2, c3]
  have q0 : -y 0 / -y 2 = y 0 / y 2 := neg_div_neg_eq _ _
  have q1 : - -y 1 / -y 2 = -(y 1 / y 2) := by rw [neg_div_neg_eq, neg_div]
  rw [q0, q1]
  generalize y 0 / y 2 = u
  generalize y 1 / y 2 = v
  rw [Prod.mk.injEq]
  constructor
  · rintro ⟨g0, g1⟩
    have e0 : f * ((1 + (u * u + v * v) * (k1 + k2 * (u * u + v * v))) * u) = a := by
      apply mul_right_cancel₀ hM.ne'
      linear_combination g0
    have e1 : f * ((1 + (u * u + v * v) * (k1 + k2 * (u * u + v * v))) * v) = b := by
      apply mul_right_cancel₀ hM.ne'
      linear_combination -g1
    rw [e0, e1]
  · intro g
    have e0 : f * ((1 + (u * u + v * v) * (k1 + k2 * (u * u + v * v))) * u) = a := congrFun g 0
    have e1 : f * ((1 + (u * u + v * v) * (k1 + k2 * (u * u + v * v))) * v) = b := congrFun g 1
    exact ⟨by linear_combination M * e0, by linear_combination -M * e1⟩

/-! ### NVM -/

/-- An exported shot and the camera in the file. -/
def IsNvmCamera (quat : (Fin 3 → Fin 3 → ℝ) → Fin 4 → ℝ) (origin : Shot → Fin 3 → ℝ) (size : Id → ℕ × ℕ) (e : Id × Shot) (c : Spec.NvmCamera Id) : Prop :=
  c.image = e.1 ∧ (∃ f, e.2.focal = some f ∧ c.f = f * max ((size e.1).1 : ℝ) (size e.1).2) ∧ c.q = quat e.2.R ∧ c.c = origin e.2 ∧ c.k = 0

/-- An observation and its view in the file: the index is that of the shot among the exported ones; the size of the image is (height, width). -/
def IsNvmView (shots : List (Id × Shot)) (size : Id → ℕ × ℕ) (e : Id × Obs) (v : Spec.View) : Prop :=
  0 ≤ v.image ∧ (shots[v.image.toNat]?).map Prod.fst = some e.1 ∧ v.feature = e.2.id ∧
    v.x = (1 / 2 + e.2.x) * (size e.1).2 ∧ v.y = (1 / 2 + e.2.y) * (size e.1).1

/-- Whether a shot is among those asked for: no list of shots asks for all of them. -/
def wanted (only : Option (List Id)) (i : Id) : Bool :=
  match only with
  | none => true
  | some l => decide (i ∈ l)

/-- The observations of a point by exported shots of the reconstruction. -/
def seenBy (r : Rec Id) (tm : TM Id Id Obs) (only : Option (List Id)) (p : Id) : List (Id × Obs) :=
  match tm.getTrackObservations p with
  | .error _ => []
  | .ok d => d.filter fun e => (r.shots.get? e.1).isSome && wanted only e.1

/-- The shots of the reconstruction that are exported. -/
def chosen (r : Rec Id) (only : Option (List Id)) : List (Id × Shot) :=
  r.shots.filter fun e => wanted only e.1

/-- A point and the point in the file. -/
def IsNvmPoint (r : Rec Id) (tm : TM Id Id Obs) (only : Option (List Id)) (size : Id → ℕ × ℕ) (p : Id × Point) (q : Spec.Pt) : Prop :=
  q.pos = p.2.coords ∧ (∀ i, q.color i = if 0 ≤ p.2.color i then ⌊p.2.color i⌋ else ⌈p.2.color i⌉) ∧
    List.Forall₂ (IsNvmView (chosen r only) size) (seenBy r tm only p.1) q.views

/-- What the loop over the shots has done when the exported shots `D` are behind it. -/
structure ShotInv (quat : (Fin 3 → Fin 3 → ℝ) → Fin 4 → ℝ) (origin : Shot → Fin 3 → ℝ) (size : Id → ℕ × ℕ) (D : List (Id × Shot)) (a : NvmAcc Id) : Prop where
  lines : List.Forall₂ (fun e l => l ≠ [] ∧ ∃ c, Spec.nvmCamera l = some c ∧ IsNvmCamera quat origin size e c) D a.lines
  next : a.next = D.length
  index : ∀ x i, a.index.get? x = some i → (D[i]?).map Prod.fst = some x
  known : ∀ e ∈ D, (a.index.get? e.1).isSome
  sizes : ∀ x, (a.sizes.get? x) = (a.index.get? x).map fun _ => size x

theorem shots_fold (quat : (Fin 3 → Fin 3 → ℝ) → Fin 4 → ℝ) (origin : Shot → Fin 3 → ℝ) (size : Id → ℕ × ℕ) (only : Option (List Id)) (L : List (Id × Shot)) :
    ∀ (D : List (Id × Shot)) (a : NvmAcc Id), ShotInv quat origin size D a →
    (L.foldlM (nvmShot quat origin size only) a = none ↔ ∃ e ∈ L, exported only e.1 = true ∧ (e.2.brown = true ∨ e.2.focal = none)) ∧
    ∀ b, L.foldlM (nvmShot quat origin size only) a = some b → ShotInv quat origin size (D ++ L.filter fun e => exported only e.1) b ∧
      b.skipped + b.next = a.skipped + a.next + L.length := by
  induction L with
  | nil =>
    intro D a h
    refine ⟨by simp, fun b hb => ?_⟩
    have : a = b := by simpa using hb
    subst this
    simpa using h
  | cons e t ih =>
    intro D a h
    rw [List.foldlM_cons]
    by_cases hx : exported only e.1 = true
    · rw [List.filter_cons_of_pos (by simpa using hx)]
      by_cases hb : e.2.brown = true
      · have h0 : nvmShot quat origin size only a e = none := by unfold nvmShot; rw [if_pos hx, if_pos hb]
        rw [h0]
        exact ⟨⟨fun _ => ⟨e, List.mem_cons_self, hx, Or.inl hb⟩, fun _ => rfl⟩, fun b h => absurd h (by simp)⟩
      · cases hf : e.2.focal with
        | none =>
          have h0 : nvmShot quat origin size only a e = none := by unfold nvmShot; rw [if_pos hx, if_neg hb, hf]
          rw [h0]
          exact ⟨⟨fun _ => ⟨e, List.mem_cons_self, hx, Or.inr hf⟩, fun _ => rfl⟩, fun b h => absurd h (by simp)⟩
        | some f =>
          obtain ⟨a', ha'⟩ : ∃ a', nvmShot quat origin size only a e = some a' := by unfold nvmShot; rw [if_pos hx, if_neg hb, hf]; exact ⟨_, rfl⟩
          have inv : ShotInv quat origin size (D ++ [e]) a' := by
            unfold nvmShot at ha'
            rw [if_pos hx, if_neg hb, hf] at ha'
            obtain rfl := Option.some.inj ha'
            refine ⟨?_, ?_, ?_, ?_, ?_⟩
            · refine List.rel_append h.lines (List.Forall₂.cons ⟨by simp, ?_⟩ List.Forall₂.nil)
              refine ⟨⟨e.1, f * (max (size e.1).1 (size e.1).2 : ℕ), ![quat e.2.R 0, quat e.2.R 1, quat e.2.R 2, quat e.2.R 3],
                ![origin e.2 0, origin e.2 1, origin e.2 2], ((0 : ℤ) : ℝ)⟩, rfl, rfl, ⟨f, hf, by rw [cast_max]⟩, ?_, ?_, Int.cast_zero⟩
              · funext i; fin_cases i <;> rfl
              · funext i; fin_cases i <;> rfl
            · simp [h.next]
            · intro x i hi
              simp only [Dict.get?_set] at hi
              by_cases hxe : e.1 = x
              · rw [if_pos hxe] at hi
                obtain rfl := Option.some.inj hi
                rw [h.next]; simp [hxe]
              · rw [if_neg hxe] at hi
                have := h.index x i hi
                have hlt : i < D.length := by
                  by_contra hc
                  rw [List.getElem?_eq_none (by omega)] at this
                  exact absurd this (by simp)
                rw [List.getElem?_append_left hlt]; exact this
            · intro y hy
              simp only [Dict.get?_set]
              rcases List.mem_append.1 hy with hy | hy
              · split
                · rfl
                · exact h.known y hy
              · obtain rfl := List.mem_singleton.1 hy
                rw [if_pos rfl]; rfl
            · intro x
              simp only [Dict.get?_set]
              by_cases hxe : e.1 = x
              · rw [if_pos hxe, if_pos hxe, hxe]; rfl
              · rw [if_neg hxe, if_neg hxe]; exact h.sizes x
          have hcount : a'.skipped = a.skipped ∧ a'.next = a.next + 1 := by
            unfold nvmShot at ha'
            rw [if_pos hx, if_neg hb, hf] at ha'
            obtain rfl := Option.some.inj ha'
            exact ⟨rfl, rfl⟩
          obtain ⟨i1, i2⟩ := ih _ a' inv
          rw [ha']
          constructor
          · refine i1.trans ?_
            constructor
            · rintro ⟨y, hy, hh⟩; exact ⟨y, List.mem_cons_of_mem _ hy, hh⟩
            · rintro ⟨y, hy, hh⟩
              rcases List.mem_cons.1 hy with rfl | hy
              · rcases hh.2 with hh | hh
                · exact absurd hh hb
                · rw [hf] at hh; exact absurd hh (by simp)
              · exact ⟨y, hy, hh⟩
          · intro b hbb
            obtain ⟨g1, g2⟩ := i2 b hbb
            rw [List.append_assoc] at g1
            refine ⟨g1, ?_⟩
            rw [g2, hcount.1, hcount.2, List.length_cons]; omega
    · rw [List.filter_cons_of_neg (by simpa using hx)]
      have ha' : nvmShot quat origin size only a e = some { a with skipped := a.skipped + 1 } := by unfold nvmShot; rw [if_neg hx]
      rw [ha']
      have inv : ShotInv quat origin size D { a with skipped := a.skipped + 1 } := ⟨h.lines, h.next, h.index, h.known, h.sizes⟩
      obtain ⟨i1, i2⟩ := ih D _ inv
      constructor
      · refine i1.trans ?_
        constructor
        · rintro ⟨y, hy, hh⟩; exact ⟨y, List.mem_cons_of_mem _ hy, hh⟩
        · rintro ⟨y, hy, hh⟩
          rcases List.mem_cons.1 hy with rfl | hy
          · exact absurd hh.1 hx
          · exact ⟨y, hy, hh⟩
      · intro b hbb
        obtain ⟨g1, g2⟩ := i2 b hbb
        refine ⟨g1, ?_⟩
        rw [g2, List.length_cons]; simp only; omega

theorem shots_start (quat : (Fin 3 → Fin 3 → ℝ) → Fin 4 → ℝ) (origin : Shot → Fin 3 → ℝ) (size : Id → ℕ × ℕ) :
    ShotInv quat origin size [] (⟨[], [], [], 0, 0⟩ : NvmAcc Id) :=
  ⟨List.Forall₂.nil, rfl, fun x i h => absurd h (by simp), by simp, fun x => rfl⟩

theorem exported_eq (only : Option (List Id)) (i : Id) : exported only i = wanted only i := by unfold exported wanted; cases only <;> rfl

/-- The lines of an observation. -/
noncomputable def nvmViewLines (r : Rec Id) (only : Option (List Id)) (a : NvmAcc Id) (e : Id × Obs) : Option (List (Line Id)) :=
  if exported only e.1 then
    if r.shots.has e.1 then
      match a.sizes.get? e.1, a.index.get? e.1 with
      | some s, some i => some [[.int i, .int e.2.id, .num ((1 / 2 + e.2.x) * s.2), .num ((1 / 2 + e.2.y) * s.1)]]
      | _, _ => none
    else some []
  else some []

theorem nvmView_eq (r : Rec Id) (only : Option (List Id)) (a : NvmAcc Id) (acc : List (Line Id)) (e : Id × Obs) :
    nvmView r only a acc e = (nvmViewLines r only a e).map fun l => acc ++ l := by
  unfold nvmView nvmViewLines
  split
  · split
    · cases a.sizes.get? e.1 <;> cases a.index.get? e.1 <;> simp
    · simp
  · simp

theorem nvm_views (r : Rec Id) (only : Option (List Id)) (quat : (Fin 3 → Fin 3 → ℝ) → Fin 4 → ℝ) (origin : Shot → Fin 3 → ℝ) (size : Id → ℕ × ℕ) (a : NvmAcc Id)
    (ha : ShotInv quat origin size (chosen r only) a) (d : List (Id × Obs)) :
    ∃ out, d.foldlM (nvmView r only a) [] = some out ∧
      out.length = (d.filter fun e => (r.shots.get? e.1).isSome && wanted only e.1).length ∧
      ∃ vs, Spec.views out.length out.flatten = some vs ∧
        List.Forall₂ (IsNvmView (chosen r only) size) (d.filter fun e => (r.shots.get? e.1).isSome && wanted only e.1) vs := by
  have hsome : ∀ e : Id × Obs, ∃ l, nvmViewLines r only a e = some l ∧
      ((((r.shots.get? e.1).isSome && wanted only e.1) = true ∧ ∃ i x y, l = [[.int (Int.ofNat i), .int e.2.id, .num x, .num y]] ∧ IsNvmView (chosen r only) size e ⟨i, e.2.id, x, y⟩) ∨
       (((r.shots.get? e.1).isSome && wanted only e.1) = false ∧ l = [])) := by
    intro e
    unfold nvmViewLines
    rw [exported_eq]
    cases ho : wanted only e.1 with
    | false => exact ⟨[], rfl, Or.inr ⟨by simp, rfl⟩⟩
    | true =>
      rw [if_pos rfl]
      cases hs : r.shots.get? e.1 with
      | none =>
        rw [if_neg (by unfold Dict.has; rw [hs]; simp)]
        exact ⟨[], rfl, Or.inr ⟨by simp, rfl⟩⟩
      | some s =>
        rw [if_pos (by unfold Dict.has; rw [hs]; simp)]
        have hm : (e.1, s) ∈ chosen r only := List.mem_filter.2 ⟨Dict.mem_of_get? hs, ho⟩
        obtain ⟨i, hi⟩ := Option.isSome_iff_exists.1 (ha.known _ hm)
        have hz := ha.sizes e.1
        rw [hi] at hz
        rw [hz, hi]
        refine ⟨_, rfl, Or.inl ⟨by simp, i, _, _, rfl, ?_⟩⟩
        refine ⟨Int.natCast_nonneg i, ?_, rfl, rfl, rfl⟩
        rw [Int.toNat_natCast]; exact ha.index e.1 i hi
  obtain ⟨k1, k2⟩ := fold_append _ _ (nvmView_eq r only a) d []
  cases hf : d.foldlM (nvmView r only a) [] with
  | none =>
    obtain ⟨e, _, he⟩ := k1.1 hf
    obtain ⟨l, hl, _⟩ := hsome e
    rw [hl] at he; exact absurd he (by simp)
  | some out =>
    obtain ⟨ls, h1, h2⟩ := k2 out hf
    refine ⟨out, rfl, ?_⟩
    rw [List.nil_append] at h2
    subst h2
    clear hf k1 k2
    induction h1 with
    | nil => exact ⟨rfl, [], rfl, List.Forall₂.nil⟩
    | @cons e l t lt hl _ ih =>
      obtain ⟨n1, vs, n2, n3⟩ := ih
      obtain ⟨l', hl', hc⟩ := hsome e
      rw [hl] at hl'
      obtain rfl := Option.some.inj hl'
      rcases hc with ⟨c1, i, x, y, rfl, c2⟩ | ⟨c1, rfl⟩
      · rw [List.filter_cons_of_pos (by exact c1)]
        refine ⟨by simpa using n1, ⟨i, e.2.id, x, y⟩ :: vs, ?_, List.Forall₂.cons c2 n3⟩
        simp only [List.flatten_cons, List.cons_append, List.nil_append, List.length_cons]
        rw [Spec.views, n2]; rfl
      · rw [List.filter_cons_of_neg (by simp [c1])]
        exact ⟨by simpa using n1, vs, by simpa using n2, n3⟩

theorem points_fold (r : Rec Id) (tm : TM Id Id Obs) (only : Option (List Id)) (quat : (Fin 3 → Fin 3 → ℝ) → Fin 4 → ℝ) (origin : Shot → Fin 3 → ℝ) (size : Id → ℕ × ℕ)
    (a : NvmAcc Id) (ha : ShotInv quat origin size (chosen r only) a) (L : List (Id × Point)) : ∀ acc : List (Line Id) × ℕ,
    (L.foldlM (nvmPoint r tm only a) acc = none ↔ ∃ p ∈ L, ∃ e, tm.getTrackObservations p.1 = .error e) ∧
    ∀ out, L.foldlM (nvmPoint r tm only a) acc = some out → ∃ ls, out.1 = acc.1 ++ ls ∧ out.2 + ls.length = acc.2 + L.length ∧
      List.Forall₂ (fun p l => l ≠ [] ∧ ∃ q, Spec.nvmPoint l = some q ∧ IsNvmPoint r tm only size p q) (L.filter fun p => decide (2 ≤ (seenBy r tm only p.1).length)) ls := by
  induction L with
  | nil =>
    intro acc
    refine ⟨by simp, fun out h => ⟨[], ?_, ?_, List.Forall₂.nil⟩⟩
    · have : acc = out := by simpa using h
      simp [this]
    · have : acc = out := by simpa using h
      simp [this]
  | cons p t ih =>
    intro acc
    rw [List.foldlM_cons]
    cases hd : tm.getTrackObservations p.1 with
    | error e =>
      have h0 : nvmPoint r tm only a acc p = none := by unfold nvmPoint; rw [hd]
      rw [h0]
      exact ⟨⟨fun _ => ⟨p, List.mem_cons_self, e, hd⟩, fun _ => rfl⟩, fun out h => absurd h (by simp)⟩
    | ok d =>
      obtain ⟨vl, v1, v2, vs, v3, v4⟩ := nvm_views r only quat origin size a ha d
      have hseen : seenBy r tm only p.1 = d.filter fun e => (r.shots.get? e.1).isSome && wanted only e.1 := by unfold seenBy; rw [hd]
      rw [← hseen] at v2 v4
      have hnone : ∀ acc' : List (Line Id) × ℕ, (t.foldlM (nvmPoint r tm only a) acc' = none ↔ ∃ p' ∈ p :: t, ∃ e, tm.getTrackObservations p'.1 = .error e) := by
        intro acc'
        refine (ih acc').1.trans ?_
        constructor
        · rintro ⟨y, hy, hh⟩; exact ⟨y, List.mem_cons_of_mem _ hy, hh⟩
        · rintro ⟨y, hy, e, hh⟩
          rcases List.mem_cons.1 hy with rfl | hy
          · rw [hd] at hh; exact absurd hh (by simp)
          · exact ⟨y, hy, e, hh⟩
      by_cases h2 : 1 < vl.length
      · have h0 : nvmPoint r tm only a acc p =
            some (acc.1 ++ [triple p.2.coords ++ (colorLine p.2.color ++ (.int vl.length :: vl.flatten))], acc.2) := by
          unfold nvmPoint; rw [hd]; simp only; rw [v1]; simp only; rw [if_pos h2]
        rw [h0]
        refine ⟨hnone _, fun out h => ?_⟩
        obtain ⟨ls, g1, g2, g3⟩ := (ih _).2 out h
        rw [List.filter_cons_of_pos (by rw [← v2]; exact decide_eq_true h2)]
        refine ⟨(triple p.2.coords ++ (colorLine p.2.color ++ (.int vl.length :: vl.flatten))) :: ls, ?_, ?_, List.Forall₂.cons ⟨by simp [triple], ?_⟩ g3⟩
        · rw [g1, List.append_assoc]; rfl
        · rw [List.length_cons, List.length_cons]; simp only at g2; omega
        · obtain ⟨k, hk1, hk2⟩ := read_color (Id := Id) p.2.color
          refine ⟨⟨p.2.coords, k, vs⟩, ?_, rfl, hk2, v4⟩
          show Spec.nvmPoint (_ :: _ :: _ :: _ :: _ :: _ :: _) = _
          rw [Spec.nvmPoint]
          have e1 : Spec.triple ([.num (p.2.coords 0), .num (p.2.coords 1), .num (p.2.coords 2)] : Line Id) = some p.2.coords := read_triple (Id := Id) p.2.coords
          have e2 : Spec.color ([.int (pyInt (p.2.color 0)), .int (pyInt (p.2.color 1)), .int (pyInt (p.2.color 2))] : Line Id) = some k := hk1
          have e3 : Spec.viewLine (.int (vl.length : ℤ) :: vl.flatten : Line Id) = some vs := v3
          rw [e1, e2]
          have e4 : Spec.viewLine (([] : Line Id).append (.int (vl.length : ℤ) :: vl.flatten)) = some vs := e3
          rw [e4]
      · have h0 : nvmPoint r tm only a acc p = some (acc.1, acc.2 + 1) := by
          unfold nvmPoint; rw [hd]; simp only; rw [v1]; simp only; rw [if_neg h2]
        rw [h0]
        refine ⟨hnone _, fun out h => ?_⟩
        obtain ⟨ls, g1, g2, g3⟩ := (ih _).2 out h
        rw [List.filter_cons_of_neg (by rw [← v2]; simpa using h2)]
        refine ⟨ls, g1, ?_, g3⟩
        rw [List.length_cons]; simp only at g2; omega

theorem read_many {α β : Type} (read : Line Id → Option β) (P : α → β → Prop) (L : List α) (ls : List (Line Id))
    (h : List.Forall₂ (fun x l => l ≠ [] ∧ ∃ c, read l = some c ∧ P x c) L ls) (rest : List (Line Id)) :
    ∃ cs, List.Forall₂ P L cs ∧ Spec.many read ls.length (ls ++ rest) = some (cs, rest) ∧ ls.length = L.length ∧ ls.filter (fun l => !l.isEmpty) = ls := by
  induction h with
  | nil => exact ⟨[], List.Forall₂.nil, rfl, rfl, rfl⟩
  | @cons x l t lt ha _ ih =>
    obtain ⟨cs, h1, h2, h3, h4⟩ := ih
    obtain ⟨hn, c, hc, hp⟩ := ha
    refine ⟨c :: cs, List.Forall₂.cons hp h1, ?_, by simp [h3], ?_⟩
    · rw [List.length_cons, List.cons_append, Spec.many, hc, h2]
    · rw [List.filter_cons_of_pos (by cases l <;> simp at hn ⊢), h4]

/-- C114: a reader of the format finds in the exported file the chosen shots, and the points with at least two observations by chosen shots, with exactly those. -/
theorem C114_nvm (quat : (Fin 3 → Fin 3 → ℝ) → Fin 4 → ℝ) (origin : Shot → Fin 3 → ℝ) (size : Id → ℕ × ℕ) (tm : TM Id Id Obs) (withPoints : Bool)
    (only : Option (List Id)) (r : Rec Id) (ls : List (Line Id)) (h : nvm quat origin size tm withPoints only r = some ls) :
    ∃ cs ps, Spec.nvm ls = some (cs, ps) ∧ List.Forall₂ (IsNvmCamera quat origin size) (chosen r only) cs ∧
      (withPoints = false → ps = []) ∧
      (withPoints = true → List.Forall₂ (IsNvmPoint r tm only size) (r.points.filter fun p => decide (2 ≤ (seenBy r tm only p.1).length)) ps) := by
  have hch : chosen r only = [] ++ r.shots.filter fun e => exported only e.1 := by
    unfold chosen
    simp only [exported_eq, List.nil_append]
  unfold nvm at h
  cases hs : r.shots.foldlM (nvmShot quat origin size only) ⟨[], [], [], 0, 0⟩ with
  | none => rw [hs] at h; exact absurd h (by simp)
  | some a =>
    rw [hs] at h
    obtain ⟨ps, hp, rfl⟩ := Option.map_eq_some_iff.1 h
    obtain ⟨ainv, acount⟩ := (shots_fold quat origin size only r.shots [] _ (shots_start quat origin size)).2 a hs
    rw [← hch] at ainv
    have ha : ∀ rest, ∃ cs, List.Forall₂ (IsNvmCamera quat origin size) (chosen r only) cs ∧
        Spec.many Spec.nvmCamera a.lines.length (a.lines ++ rest) = some (cs, rest) ∧ a.lines.length = (chosen r only).length ∧
        a.lines.filter (fun l => !l.isEmpty) = a.lines := fun rest => read_many _ _ _ _ ainv.lines rest
    have hlen : a.lines.length = (chosen r only).length := (ha []).choose_spec.2.2.1
    have hn : ((r.shots.length : ℤ) - a.skipped) = Int.ofNat a.lines.length := by
      rw [hlen, ← ainv.next]
      simp only [Nat.zero_add] at acount
      have : (a.skipped : ℤ) + a.next = r.shots.length := by exact_mod_cast acount
      simp only [Int.ofNat_eq_natCast]
      linarith
    have hif : ∀ o : Option (List (Spec.NvmCamera Id) × List Spec.Pt), (if "NVM_V3" = "NVM_V3" then o else none) = o := fun o => if_pos rfl
    obtain ⟨F, hF⟩ : ∃ F, F = fun l : Line Id => !l.isEmpty := ⟨_, rfl⟩
    have hfl : a.lines.filter F = a.lines := by rw [hF]; exact (ha []).choose_spec.2.2.2
    have main : ∀ (m : ℕ) (pls : List (Line Id)) (qs : List Spec.Pt), ps.filter F = [.int (.ofNat m)] :: pls →
        Spec.many Spec.nvmPoint m (pls ++ [[.int 0], [.int 0]]) = some (qs, [[.int 0], [.int 0]]) →
        ∃ cs, Spec.nvm ([[.text "NVM_V3"], [], [.int ((r.shots.length : ℤ) - a.skipped)]] ++ a.lines ++ ps ++ [[.int 0], [], [.int 0]]) = some (cs, qs) ∧
          List.Forall₂ (IsNvmCamera quat origin size) (chosen r only) cs := by
      intro m pls qs h1 h2
      obtain ⟨cs, c1, c2, _, _⟩ := ha ([.int (.ofNat m)] :: (pls ++ [[.int 0], [.int 0]]))
      refine ⟨cs, ?_, c1⟩
      unfold Spec.nvm
      rw [← hF, List.filter_append, List.filter_append, List.filter_append, h1, hfl, hn]
      have e1 : ([[.text "NVM_V3"], [], [.int (Int.ofNat a.lines.length)]] : List (Line Id)).filter F = [[.text "NVM_V3"], [.int (Int.ofNat a.lines.length)]] := by
        rw [hF]; rfl
      have e2 : ([[.int 0], [], [.int 0]] : List (Line Id)).filter F = [[.int 0], [.int 0]] := by rw [hF]; rfl
      rw [e1, e2]
      simp only [List.cons_append, List.nil_append, List.append_assoc]
      refine (hif _).trans ?_
      rw [c2]
      simp only
      rw [h2]
      exact if_pos trivial
    unfold nvmPoints at hp
    cases withPoints with
    | false =>
      rw [if_neg (by simp)] at hp
      obtain rfl := Option.some.inj hp
      obtain ⟨cs, c1, c2⟩ := main 0 [] [] (by rw [hF]; rfl) rfl
      exact ⟨cs, [], c1, c2, fun _ => rfl, fun h => absurd h (by simp)⟩
    | true =>
      rw [if_pos rfl] at hp
      obtain ⟨x, hx, rfl⟩ := Option.map_eq_some_iff.1 hp
      obtain ⟨pls, g1, g2, g3⟩ := (points_fold r tm only quat origin size a ainv r.points ([], 0)).2 x hx
      obtain ⟨qs, q1, q2, q3, q4⟩ := read_many _ _ _ _ g3 [[.int 0], [.int 0]]
      rw [List.nil_append] at g1
      have hm : ((r.points.length : ℤ) - x.2) = Int.ofNat pls.length := by
        simp only [Nat.zero_add] at g2
        have : (x.2 : ℤ) + pls.length = r.points.length := by exact_mod_cast g2
        simp only [Int.ofNat_eq_natCast]
        linarith
      obtain ⟨cs, c1, c2⟩ := main pls.length pls qs (by
        rw [g1, List.filter_append, hm]
        have e1 : ([[], [.int (Int.ofNat pls.length)]] : List (Line Id)).filter F = [[.int (Int.ofNat pls.length)]] := by rw [hF]; rfl
        rw [e1, hF, q4]; rfl) q2
      exact ⟨cs, qs, c1, c2, fun h => absurd h (by simp), fun _ => q1⟩

/-- C114: exporting to NVM fails exactly when a chosen shot has a `brown` camera or one without focal length, or when a point to export is not in the tracks manager. -/
theorem C114_nvm_fails (quat : (Fin 3 → Fin 3 → ℝ) → Fin 4 → ℝ) (origin : Shot → Fin 3 → ℝ) (size : Id → ℕ × ℕ) (tm : TM Id Id Obs) (withPoints : Bool)
    (only : Option (List Id)) (r : Rec Id) : nvm quat origin size tm withPoints only r = none ↔
    (∃ e ∈ chosen r only, e.2.brown = true ∨ e.2.focal = none) ∨ (withPoints = true ∧ ∃ p ∈ r.points, ∃ e, tm.getTrackObservations p.1 = .error e) := by
  have hch : chosen r only = [] ++ r.shots.filter fun e => exported only e.1 := by
    unfold chosen
    simp only [exported_eq, List.nil_append]
  have h1 := shots_fold quat origin size only r.shots [] _ (shots_start quat origin size)
  have h2 : (∃ e ∈ chosen r only, e.2.brown = true ∨ e.2.focal = none) ↔
      ∃ e ∈ r.shots, exported only e.1 = true ∧ (e.2.brown = true ∨ e.2.focal = none) := by
    rw [hch, List.nil_append]
    simp only [List.mem_filter, and_assoc]
  rw [h2, ← h1.1]
  unfold nvm
  cases hs : r.shots.foldlM (nvmShot quat origin size only) ⟨[], [], [], 0, 0⟩ with
  | none => simp
  | some a =>
    have ainv := (h1.2 a hs).1
    rw [← hch] at ainv
    simp only [reduceCtorEq, false_or, Option.map_eq_none_iff]
    unfold nvmPoints
    cases withPoints with
    | false => simp
    | true =>
      rw [if_pos rfl, Option.map_eq_none_iff, (points_fold r tm only quat origin size a ainv r.points ([], 0)).1]
      simp

/-- C114: the exported position of an observation is the position in pixels of the observation (half a pixel added, as the centre of the first pixel is at one half), in
x exactly when it is in the middle or the image is at least as wide as high, and in y exactly when it is in the middle or the image is at least as high as wide. -/
theorem C114_nvm_pixels (shots : List (Id × Shot)) (size : Id → ℕ × ℕ) (e : Id × Obs) (v : Spec.View) (h : IsNvmView shots size e v) (w hh : ℕ)
    (hs : size e.1 = (hh, w)) :
    (v.x = (e.2.x * max (w : ℝ) hh - 1 / 2 + w / 2) + 1 / 2 ↔ e.2.x = 0 ∨ hh ≤ w) ∧
    (v.y = (e.2.y * max (w : ℝ) hh - 1 / 2 + hh / 2) + 1 / 2 ↔ e.2.y = 0 ∨ w ≤ hh) := by
  obtain ⟨_, _, _, hx, hy⟩ := h
  rw [hs] at hx hy
  simp only at hx hy
  constructor
  · have : v.x = (e.2.x * max (w : ℝ) hh - 1 / 2 + w / 2) + 1 / 2 ↔ e.2.x * ((w : ℝ) - max (w : ℝ) hh) = 0 := by
      rw [hx]
      constructor
      · intro g; linear_combination g
      · intro g; linear_combination g
    rw [this, mul_eq_zero, sub_eq_zero]
    refine or_congr Iff.rfl ?_
    rw [eq_comm, max_eq_left_iff]
    exact Nat.cast_le
  · have : v.y = (e.2.y * max (w : ℝ) hh - 1 / 2 + hh / 2) + 1 / 2 ↔ e.2.y * ((hh : ℝ) - max (w : ℝ) hh) = 0 := by
      rw [hy]
      constructor
      · intro g; linear_combination g
      · intro g; linear_combination g
    rw [this, mul_eq_zero, sub_eq_zero]
    refine or_congr Iff.rfl ?_
    rw [eq_comm, max_eq_right_iff]
    exact Nat.cast_le

/-! ### Examples -/

/-- A shot of a perspective camera of 4 x 3 pixels. -/
private noncomputable def exShot (x : ℝ) : Shot := ⟨false, some 1, some 0, some 0, 4, 3, fun i j => if i = j then 1 else 0, ![x, 0, 0]⟩

/-- A reconstruction of two shots and two points. -/
private noncomputable def exRec : Rec ℕ := ⟨[(1, exShot 0), (2, exShot 1)], [(10, ⟨![0, 0, 5], ![255, 7, 0]⟩), (11, ⟨![1, 0, 5], ![1, 2, 3]⟩)]⟩

/-- Three shots see the first point, one sees the second. -/
private noncomputable def exTM : TM ℕ ℕ Obs :=
  (((TM.empty.addObservation 1 10 ⟨0, 0, 5⟩).addObservation 2 10 ⟨1 / 4, 0, 6⟩).addObservation 3 10 ⟨0, 0, 7⟩).addObservation 1 11 ⟨1 / 5, 0, 8⟩

private theorem exTM_10 : exTM.getTrackObservations 10 = .ok [(1, ⟨0, 0, 5⟩), (2, ⟨1 / 4, 0, 6⟩), (3, ⟨0, 0, 7⟩)] := rfl

private theorem exTM_11 : exTM.getTrackObservations 11 = .ok [(1, ⟨1 / 5, 0, 8⟩)] := rfl

/-- The export of the example succeeds when the list has the images of the reconstruction, also with an image more. -/
example : ∃ ls, bundler [2, 9, 1] exTM exRec = some ls := by
  rw [← Option.isSome_iff_exists, Option.isSome_iff_ne_none, Ne, C114_bundler_fails]
  simp [exRec, exTM_10, exTM_11, exShot, Dict.get?]
  rintro x o (⟨rfl, _⟩ | ⟨rfl, _⟩ | ⟨rfl, _⟩) <;> simp

/-- Without the second image it fails. -/
example : bundler [1] exTM exRec = none := by
  rw [C114_bundler_fails]
  right
  exact ⟨(10, ⟨![0, 0, 5], ![255, 7, 0]⟩), List.mem_cons_self, Or.inr ⟨_, exTM_10, (2, ⟨1 / 4, 0, 6⟩), by simp, rfl, by simp⟩⟩

/-- Two undistorted reconstructions. -/
example : bundlerFiles true [1, 2] exTM [⟨[(3, exShot 0)], []⟩, exRec] = none :=
  C114_bundler_undistorted [1, 2] exTM _ [exRec] exRec (by simp) (10, ⟨![0, 0, 5], ![255, 7, 0]⟩) List.mem_cons_self _ exTM_10 (1, ⟨0, 0, 5⟩) (by simp) rfl rfl

/-- The NVM file of the example: the point seen by one shot is left out. -/
example (quat : (Fin 3 → Fin 3 → ℝ) → Fin 4 → ℝ) (origin : Shot → Fin 3 → ℝ) (size : ℕ → ℕ × ℕ) : ∃ ls, nvm quat origin size exTM true none exRec = some ls ∧
    exRec.points.filter (fun p => decide (2 ≤ (seenBy exRec exTM none p.1).length)) = [(10, ⟨![0, 0, 5], ![255, 7, 0]⟩)] := by
  have h : nvm quat origin size exTM true none exRec ≠ none := by
    rw [Ne, C114_nvm_fails]
    simp [exRec, exTM_10, exTM_11, exShot, chosen, wanted]
  obtain ⟨ls, hls⟩ := Option.ne_none_iff_exists'.1 h
  exact ⟨ls, hls, by simp [exRec, seenBy, exTM_10, exTM_11, wanted, Dict.get?, List.filter]⟩

/-- With a `brown` camera there is no file. -/
example (quat : (Fin 3 → Fin 3 → ℝ) → Fin 4 → ℝ) (origin : Shot → Fin 3 → ℝ) (size : ℕ → ℕ × ℕ) :
    nvm quat origin size exTM true none ⟨[(1, { exShot 0 with brown := true })], []⟩ = none := by
  rw [C114_nvm_fails]
  exact Or.inl ⟨(1, { exShot 0 with brown := true }), by simp [chosen, wanted], Or.inl rfl⟩

/-- In an image of 4 x 3 pixels an observation below the middle is displaced. -/
example (v : Spec.View) (h : IsNvmView [(1, exShot 0)] (fun _ => (3, 4)) (1, ⟨0, 1 / 4, 5⟩) v) : v.y ≠ (1 / 4 * max ((4 : ℕ) : ℝ) (3 : ℕ) - 1 / 2 + ((3 : ℕ) : ℝ) / 2) + 1 / 2 := by
  intro hv
  have := (C114_nvm_pixels _ _ _ v h 4 3 rfl).2.1 hv
  norm_num at this

end Verif.ExportText
