import Mathlib.Data.List.Chain
import Mathlib.Tactic.Linarith
import Verif.Model.GrowSteps

/-!
C122: the order of the steps that grow a reconstruction.
-/
set_option linter.unusedSectionVars false
set_option linter.unusedSimpArgs false
set_option linter.unusedVariables false
namespace Verif.GrowSteps

variable {W Img : Type}

/-! ### Specification -/

/-- Images are added by resection only, when it succeeds, and painting keeps the points. -/
structure Keeps (ops : Ops W Img) : Prop where
  shots : ∀ a w, (∀ im, a = .resect im → ops.resected w im = none) → ops.shots (ops.exec a w) = ops.shots w
  paint : ∀ w, ops.points (ops.exec .paint w) = ops.points w

/-- A bundle adjustment of everything. -/
def isBundle : Act Img → Bool
  | .bundle _ _ => true
  | _ => false

/-- The removal of outliers that ends a bundle adjustment of everything. -/
def isOutliers : Act Img → Bool
  | .outliers => true
  | _ => false

/-- A re-triangulation. -/
def isRetriangulate : Act Img → Bool
  | .retriangulate => true
  | _ => false

/-- The last step of a kind. -/
def lastOf (p : Act Img → Bool) (J : List (Entry W Img)) : Option (Entry W Img) := J.reverse.find? (fun e => p e.act)

/-- The first removal of outliers after the last re-triangulation (or the first of all). -/
def afterRetriangulate (J : List (Entry W Img)) : Option (Entry W Img) :=
  ((J.reverse.takeWhile (fun e => !isRetriangulate e.act)).reverse).find? (fun e => isOutliers e.act)

/-- The journal is that of a run: every step is the effect of its act on what the one before left. -/
def Faithful (ops : Ops W Img) (w : W) (J : List (Entry W Img)) (w' : W) : Prop :=
  match J with
  | [] => w' = w
  | e :: rest => e.before = w ∧ e.after = ops.exec e.act w ∧ Faithful ops e.after rest w'

/-! ### Journals of steps -/

theorem steps_nil (ops : Ops W Img) (r : Run W Img) : r.steps ops [] = r := rfl

theorem steps_cons (ops : Ops W Img) (r : Run W Img) (a : Act Img) (l : List (Act Img)) :
    r.steps ops (a :: l) = (r.step ops a).steps ops l := rfl

theorem faithful_append (ops : Ops W Img) {w w' w'' : W} {J K : List (Entry W Img)} (h1 : Faithful ops w J w')
    (h2 : Faithful ops w' K w'') : Faithful ops w (J ++ K) w'' := by
  induction J generalizing w with
  | nil => cases h1; exact h2
  | cons e J ih => exact ⟨h1.1, h1.2.1, ih h1.2.2⟩

theorem faithful_step {ops : Ops W Img} {w : W} {r : Run W Img} (h : Faithful ops w r.journal r.world) (a : Act Img) :
    Faithful ops w (r.step ops a).journal (r.step ops a).world :=
  faithful_append ops h ⟨rfl, rfl, rfl⟩

theorem faithful_steps {ops : Ops W Img} {w : W} (l : List (Act Img)) {r : Run W Img}
    (h : Faithful ops w r.journal r.world) : Faithful ops w (r.steps ops l).journal (r.steps ops l).world := by
  induction l generalizing r with
  | nil => exact h
  | cons a l ih => exact ih (faithful_step h a)

theorem faithful_try {ops : Ops W Img} {w : W} (l : List Img) {r : Run W Img}
    (h : Faithful ops w r.journal r.world) :
    Faithful ops w (tryCandidates ops r l).1.journal (tryCandidates ops r l).1.world := by
  induction l generalizing r with
  | nil => exact h
  | cons im l ih =>
    unfold tryCandidates
    cases ops.resected r.world im with
    | some new => exact faithful_step h _
    | none => exact ih (faithful_step h _)

theorem faithful_settle {ops : Ops W Img} {w : W} (c : Config) (m : Memory) (im : Img) (new : List Img) {r : Run W Img}
    (h : Faithful ops w r.journal r.world) :
    Faithful ops w (settle ops c r m im new).1.journal (settle ops c r m im new).1.world := by
  unfold settle
  have h1 := faithful_steps [.shotPoses new, .triangulate new] h
  simp only
  split
  · exact faithful_steps _ h1
  · split
    · exact faithful_steps _ h1
    · split
      · exact faithful_steps _ h1
      · exact h1

theorem faithful_loop {ops : Ops W Img} {w : W} (c : Config) (fuel : ℕ) (m : Memory) (images : List Img) {r : Run W Img}
    (h : Faithful ops w r.journal r.world) :
    Faithful ops w (loop ops c fuel r m images).journal (loop ops c fuel r m images).world := by
  induction fuel generalizing r m images with
  | zero => exact h
  | succ fuel ih =>
    unfold loop
    have h0 : Faithful ops w (savePartial ops c r).journal (savePartial ops c r).world := by
      unfold savePartial
      split
      · exact faithful_steps _ h
      · exact h
    have h1 := faithful_try (ops.candidates (savePartial ops c r).world images) h0
    simp only
    rcases ht : tryCandidates ops (savePartial ops c r) (ops.candidates (savePartial ops c r).world images) with ⟨r1, o⟩
    rw [ht] at h1
    cases o with
    | none => exact h1
    | some x => exact ih _ _ (faithful_settle c m x.1 x.2 h1)

/-- C122: the journal is that of the run. -/
theorem C122_journal (ops : Ops W Img) (c : Config) (fuel : ℕ) (w : W) (images : List Img) :
    Faithful ops w (grow ops c fuel w images).journal (grow ops c fuel w images).world := by
  unfold grow start finish
  have h0 : Faithful ops w (Run.steps ops ⟨w, []⟩
      [.paint, .align false, .bundle false c.compensateBias, .outliers, .paint]).journal
      (Run.steps ops ⟨w, []⟩ [.paint, .align false, .bundle false c.compensateBias, .outliers, .paint]).world :=
    faithful_steps _ rfl
  have h1 := faithful_loop c fuel (newMemory ops (Run.steps ops ⟨w, []⟩
    [.paint, .align false, .bundle false c.compensateBias, .outliers, .paint]).world) images h0
  refine faithful_step ?_ _
  split
  · exact faithful_steps _ (faithful_steps _ (faithful_step h1 _))
  · exact faithful_steps _ (faithful_step h1 _)

/-! ### How often everything is bundled -/

theorem lastOf_append (p : Act Img → Bool) (J : List (Entry W Img)) (e : Entry W Img) :
    lastOf p (J ++ [e]) = if p e.act then some e else lastOf p J := by
  unfold lastOf
  rw [List.reverse_append, List.reverse_singleton, List.singleton_append, List.find?_cons]
  cases p e.act <;> rfl

theorem afterRetri_append (J : List (Entry W Img)) (e : Entry W Img) :
    afterRetriangulate (J ++ [e]) = if isRetriangulate e.act then none
      else (afterRetriangulate J).or (if isOutliers e.act then some e else none) := by
  unfold afterRetriangulate
  rw [List.reverse_append, List.reverse_singleton, List.singleton_append, List.takeWhile_cons]
  cases isRetriangulate e.act with
  | true => rfl
  | false =>
    simp only [Bool.not_false, if_true, Bool.false_eq_true, if_false]
    rw [List.reverse_cons, List.find?_append]
    congr 1
    rw [List.find?_cons]
    cases isOutliers e.act <;> rfl

/-- What the helpers remember is what the journal shows. -/
structure Mem (ops : Ops W Img) (r : Run W Img) (m : Memory) : Prop where
  outliers : ∃ o, lastOf isOutliers r.journal = some o ∧ ops.points o.after = m.bundlePoints ∧
    ops.shots o.after = m.bundleShots
  retri : ∃ o, afterRetriangulate r.journal = some o ∧ ops.points o.after = m.retriPoints
  bundle : ∃ b, lastOf isBundle r.journal = some b ∧ ops.shots b.after = m.bundleShots

/-- Steps that are neither bundle adjustments of everything, removals of outliers nor re-triangulations. -/
def plain : Act Img → Bool
  | .bundle _ _ => false
  | .outliers => false
  | .retriangulate => false
  | _ => true

theorem plain_parts {a : Act Img} (h : plain a = true) :
    isBundle a = false ∧ isOutliers a = false ∧ isRetriangulate a = false := by
  cases a <;> simp_all [plain, isBundle, isOutliers, isRetriangulate]

theorem mem_plain {ops : Ops W Img} {r : Run W Img} {m : Memory} (h : Mem ops r m)
    {a : Act Img} (ha : plain a = true) : Mem ops (r.step ops a) m := by
  obtain ⟨p1, p2, p3⟩ := plain_parts ha
  obtain ⟨h1, h2, h3⟩ := h
  unfold Run.step
  refine ⟨?_, ?_, ?_⟩
  · simp only [lastOf_append, p2]; exact h1
  · obtain ⟨o, e, q⟩ := h2
    refine ⟨o, ?_, q⟩
    simp only [afterRetri_append, p2, p3, e]
    rfl
  · simp only [lastOf_append, p1]; exact h3

theorem mem_plains {ops : Ops W Img} {m : Memory} (l : List (Act Img))
    (hl : ∀ a ∈ l, plain a = true) {r : Run W Img} (h : Mem ops r m) : Mem ops (r.steps ops l) m := by
  induction l generalizing r with
  | nil => exact h
  | cons a l ih =>
    exact ih (fun b hb => hl b (List.mem_cons_of_mem _ hb)) (mem_plain h (hl a List.mem_cons_self))

theorem shots_steps {ops : Ops W Img} (hk : Keeps ops) (l : List (Act Img)) (hl : ∀ a ∈ l, ∀ im, a ≠ .resect im)
    (r : Run W Img) : ops.shots (r.steps ops l).world = ops.shots r.world := by
  induction l generalizing r with
  | nil => rfl
  | cons a l ih =>
    rw [steps_cons, ih (fun b hb => hl b (List.mem_cons_of_mem _ hb))]
    exact hk.shots a r.world (fun im e => absurd e (hl a List.mem_cons_self im))

/-- The journal of two steps, and what is known of it. -/
theorem settle_cases (ops : Ops W Img) (c : Config) (r : Run W Img) (m : Memory) (im : Img) (new : List Img) :
    ∃ r1, r1 = r.steps ops [.shotPoses new, .triangulate new] ∧
    ((c.retriangulation = true ∧ (m.retriPoints : ℚ) * c.retriangulationRatio < (ops.points r1.world : ℚ)) ∧
        settle ops c r m im new =
        (r1.steps ops [.align false, .bundle false c.compensateBias, .retriangulate, .bundle false c.compensateBias,
          .outliers], ⟨ops.points (r1.steps ops [.align false, .bundle false c.compensateBias, .retriangulate,
            .bundle false c.compensateBias, .outliers]).world,
          ops.shots (r1.steps ops [.align false, .bundle false c.compensateBias, .retriangulate,
            .bundle false c.compensateBias, .outliers]).world,
          ops.points (r1.steps ops [.align false, .bundle false c.compensateBias, .retriangulate,
            .bundle false c.compensateBias, .outliers]).world⟩) ∨
     ¬ (c.retriangulation = true ∧ (m.retriPoints : ℚ) * c.retriangulationRatio < (ops.points r1.world : ℚ)) ∧
     (((m.bundlePoints : ℚ) * c.newPointsRatio ≤ (ops.points r1.world : ℚ) ∨
          m.bundleShots + c.interval ≤ ops.shots r1.world) ∧
        settle ops c r m im new = (r1.steps ops [.align false, .bundle false c.compensateBias, .outliers],
          ⟨ops.points (r1.steps ops [.align false, .bundle false c.compensateBias, .outliers]).world,
           ops.shots (r1.steps ops [.align false, .bundle false c.compensateBias, .outliers]).world, m.retriPoints⟩) ∨
      ¬ ((m.bundlePoints : ℚ) * c.newPointsRatio ≤ (ops.points r1.world : ℚ) ∨
          m.bundleShots + c.interval ≤ ops.shots r1.world) ∧
      (0 < c.localRadius ∧ settle ops c r m im new = (r1.steps ops [.bundleLocal im, .outliersLocal], m) ∨
       c.localRadius = 0 ∧ settle ops c r m im new = (r1, m)))) := by
  refine ⟨_, rfl, ?_⟩
  unfold settle
  simp only
  generalize r.steps ops [.shotPoses new, .triangulate new] = r1
  by_cases h1 : shouldRetriangulate ops c m r1.world = true
  · refine Or.inl ⟨by simpa [shouldRetriangulate] using h1, ?_⟩
    rw [if_pos h1]
    rfl
  · refine Or.inr ⟨by simpa [shouldRetriangulate] using h1, ?_⟩
    rw [if_neg h1]
    by_cases h2 : shouldBundle ops c m r1.world = true
    · refine Or.inl ⟨by simpa [shouldBundle] using h2, ?_⟩
      rw [if_pos h2]
      rfl
    · refine Or.inr ⟨by simpa [shouldBundle] using h2, ?_⟩
      rw [if_neg h2]
      by_cases h3 : 0 < c.localRadius
      · exact Or.inl ⟨h3, by rw [if_pos h3]⟩
      · exact Or.inr ⟨by omega, by rw [if_neg h3]⟩

/-- After a bundle adjustment of everything and the removal of outliers the helpers remember the present. -/
theorem mem_bundled {ops : Ops W Img} (hk : Keeps ops) (r : Run W Img) (g b : Bool) (p : ℕ)
    (hr : ∃ o, (afterRetriangulate r.journal).or (some ⟨(r.step ops (.bundle g b)).world, .outliers,
        (r.steps ops [.bundle g b, .outliers]).world⟩) = some o ∧ ops.points o.after = p) :
    Mem ops (r.steps ops [.bundle g b, .outliers]) ⟨ops.points (r.steps ops [.bundle g b, .outliers]).world,
      ops.shots (r.steps ops [.bundle g b, .outliers]).world, p⟩ := by
  simp only [steps_cons, steps_nil] at hr ⊢
  refine ⟨?_, ?_, ?_⟩
  · refine ⟨⟨ops.exec (.bundle g b) r.world, .outliers, ops.exec .outliers (ops.exec (.bundle g b) r.world)⟩, ?_, rfl, rfl⟩
    simp only [Run.step, lastOf_append, isOutliers, if_true]
  · obtain ⟨o, e, q⟩ := hr
    refine ⟨o, ?_, q⟩
    rw [← e]
    simp only [Run.step, afterRetri_append, isOutliers, isRetriangulate, Bool.false_eq_true, if_false, if_true]
    cases afterRetriangulate r.journal <;> rfl
  · refine ⟨⟨r.world, .bundle g b, ops.exec (.bundle g b) r.world⟩, by
      simp only [Run.step, lastOf_append, isBundle, Bool.false_eq_true, if_false, if_true], ?_⟩
    simp only [Run.step]
    exact (hk.shots .outliers _ (fun im e => by cases e)).symm

/-- What is done after an image is added leaves the helpers in agreement with the journal, and few images since the
last bundle adjustment. -/
theorem mem_settle {ops : Ops W Img} (hk : Keeps ops) {c : Config} {r : Run W Img} {m : Memory} (h : Mem ops r m)
    (im : Img) (new : List Img) :
    Mem ops (settle ops c r m im new).1 (settle ops c r m im new).2 ∧
    ops.shots (settle ops c r m im new).1.world < (settle ops c r m im new).2.bundleShots + max 1 c.interval := by
  obtain ⟨r1, e1, hc⟩ := settle_cases ops c r m im new
  have hm1 : Mem ops r1 m := e1 ▸ mem_plains _ (by simp [plain]) h
  have h1 : 1 ≤ max 1 c.interval := le_max_left _ _
  have h2 : c.interval ≤ max 1 c.interval := le_max_right _ _
  rcases hc with ⟨_, e⟩ | ⟨_, ⟨_, e⟩ | ⟨hn, ⟨_, e⟩ | ⟨_, e⟩⟩⟩
  · rw [e]
    constructor
    · have := mem_bundled hk (r1.steps ops [.align false, .bundle false c.compensateBias, .retriangulate]) false
        c.compensateBias (ops.points (r1.steps ops [.align false, .bundle false c.compensateBias, .retriangulate,
            .bundle false c.compensateBias, .outliers]).world) ⟨_, by
          simp only [steps_cons, steps_nil, Run.step, afterRetri_append, isRetriangulate, if_true]
          exact rfl, rfl⟩
      exact this
    · simp only
      omega
  · rw [e]
    constructor
    · obtain ⟨o, q1, q2⟩ := (mem_plain hm1 (a := .align false) rfl).retri
      have := mem_bundled hk (r1.steps ops [.align false]) false c.compensateBias m.retriPoints ⟨o, by
          simp only [steps_cons, steps_nil, q1]
          rfl, q2⟩
      exact this
    · simp only
      omega
  · rw [e]
    refine ⟨mem_plains _ (by simp [plain]) hm1, ?_⟩
    simp only
    rw [shots_steps hk _ (by simp)]
    omega
  · rw [e]
    refine ⟨hm1, ?_⟩
    simp only
    omega

/-- Every attempt to add an image comes when few images have been added since the last bundle adjustment. -/
def Spaced (ops : Ops W Img) (c : Config) (J : List (Entry W Img)) : Prop :=
  ∀ pre e post im, J = pre ++ e :: post → e.act = .resect im →
    ∃ b, lastOf isBundle pre = some b ∧ ops.shots e.before < ops.shots b.after + max 1 c.interval

theorem snoc_split {α : Type} {J pre post : List α} {x e : α} (h : J ++ [x] = pre ++ e :: post) :
    (pre = J ∧ e = x ∧ post = []) ∨ ∃ post', post = post' ++ [x] ∧ J = pre ++ e :: post' := by
  rcases List.eq_nil_or_concat post with rfl | ⟨l, a, rfl⟩
  · left
    have := List.append_inj' h rfl
    simp only [List.cons.injEq, and_true] at this
    exact ⟨this.1.symm, this.2.symm, rfl⟩
  · right
    have h' : J ++ [x] = (pre ++ e :: l) ++ [a] := by rw [h]; simp
    have := List.append_inj' h' rfl
    simp only [List.cons.injEq, and_true] at this
    exact ⟨l, by rw [this.2]; simp, this.1⟩

theorem spaced_step {ops : Ops W Img} {c : Config} {r : Run W Img} (h : Spaced ops c r.journal) (a : Act Img)
    (ha : ∀ im, a = .resect im → ∃ b, lastOf isBundle r.journal = some b ∧
      ops.shots r.world < ops.shots b.after + max 1 c.interval) : Spaced ops c (r.step ops a).journal := by
  intro pre e post im hJ he
  rcases snoc_split hJ with ⟨rfl, rfl, rfl⟩ | ⟨post', rfl, hJ'⟩
  · exact ha im he
  · exact h pre e post' im hJ' he

theorem spaced_steps {ops : Ops W Img} {c : Config} (l : List (Act Img)) (hl : ∀ a ∈ l, ∀ im, a ≠ .resect im)
    {r : Run W Img} (h : Spaced ops c r.journal) : Spaced ops c (r.steps ops l).journal := by
  induction l generalizing r with
  | nil => exact h
  | cons a l ih =>
    exact ih (fun b hb => hl b (List.mem_cons_of_mem _ hb))
      (spaced_step h a (fun im e => absurd e (hl a List.mem_cons_self im)))

theorem spaced_settle {ops : Ops W Img} {c : Config} {r : Run W Img} (m : Memory) (im : Img) (new : List Img)
    (h : Spaced ops c r.journal) : Spaced ops c (settle ops c r m im new).1.journal := by
  obtain ⟨r1, e1, hc⟩ := settle_cases ops c r m im new
  have h1 : Spaced ops c r1.journal := e1 ▸ spaced_steps _ (by simp) h
  rcases hc with ⟨_, e⟩ | ⟨_, ⟨_, e⟩ | ⟨hn, ⟨_, e⟩ | ⟨_, e⟩⟩⟩ <;> rw [e]
  · exact spaced_steps _ (by simp) h1
  · exact spaced_steps _ (by simp) h1
  · exact spaced_steps _ (by simp) h1
  · exact h1

theorem spaced_try {ops : Ops W Img} (hk : Keeps ops) {c : Config} {m : Memory} (l : List Img) {r : Run W Img}
    (hm : Mem ops r m) (hf : ops.shots r.world < m.bundleShots + max 1 c.interval) (h : Spaced ops c r.journal) :
    Mem ops (tryCandidates ops r l).1 m ∧ Spaced ops c (tryCandidates ops r l).1.journal := by
  induction l generalizing r with
  | nil => exact ⟨hm, h⟩
  | cons im l ih =>
    have h1 : Spaced ops c (r.step ops (.resect im)).journal := spaced_step h _ (fun _ _ => by
      obtain ⟨b, q1, q2⟩ := hm.bundle
      exact ⟨b, q1, by rw [q2]; exact hf⟩)
    have h2 : Mem ops (r.step ops (.resect im)) m := mem_plain hm rfl
    unfold tryCandidates
    cases hr : ops.resected r.world im with
    | some new => exact ⟨h2, h1⟩
    | none =>
      refine ih h2 ?_ h1
      have : ops.shots (r.step ops (.resect im)).world = ops.shots r.world :=
        hk.shots _ _ (fun i e => by cases e; exact hr)
      rw [this]
      exact hf

theorem spaced_loop {ops : Ops W Img} (hk : Keeps ops) {c : Config} (fuel : ℕ) {m : Memory} {images : List Img}
    {r : Run W Img} (hm : Mem ops r m) (hf : ops.shots r.world < m.bundleShots + max 1 c.interval)
    (h : Spaced ops c r.journal) : Spaced ops c (loop ops c fuel r m images).journal := by
  induction fuel generalizing r m images with
  | zero => exact h
  | succ fuel ih =>
    unfold loop
    have h0 : Mem ops (savePartial ops c r) m ∧ Spaced ops c (savePartial ops c r).journal ∧
        ops.shots (savePartial ops c r).world = ops.shots r.world := by
      unfold savePartial
      split
      · exact ⟨mem_plains _ (by simp [plain]) hm, spaced_steps _ (by simp) h, shots_steps hk _ (by simp) _⟩
      · exact ⟨hm, h, rfl⟩
    have h1 := spaced_try hk (c := c) (ops.candidates (savePartial ops c r).world images) h0.1 (h0.2.2 ▸ hf) h0.2.1
    simp only
    rcases ht : tryCandidates ops (savePartial ops c r) (ops.candidates (savePartial ops c r).world images) with ⟨r1, o⟩
    rw [ht] at h1
    cases o with
    | none => exact h1.2
    | some x =>
      obtain ⟨g1, g2⟩ := mem_settle hk (c := c) h1.1 x.1 x.2
      exact ih g1 g2 (spaced_settle m x.1 x.2 h1.2)

theorem mem_start {ops : Ops W Img} (hk : Keeps ops) (c : Config) (w : W) :
    Mem ops (start ops c w) (newMemory ops (start ops c w).world) := by
  have h0 : Mem ops (Run.steps ops ⟨w, []⟩ [.paint, .align false, .bundle false c.compensateBias, .outliers])
      ⟨ops.points (Run.steps ops ⟨w, []⟩ [.paint, .align false, .bundle false c.compensateBias, .outliers]).world,
       ops.shots (Run.steps ops ⟨w, []⟩ [.paint, .align false, .bundle false c.compensateBias, .outliers]).world,
       ops.points (Run.steps ops ⟨w, []⟩ [.paint, .align false, .bundle false c.compensateBias, .outliers]).world⟩ :=
    mem_bundled hk (Run.steps ops ⟨w, []⟩ [.paint, .align false]) false c.compensateBias _ ⟨_, rfl, rfl⟩
  have h1 := mem_plain h0 (a := .paint) rfl
  have e1 : newMemory ops (start ops c w).world =
      ⟨ops.points (Run.steps ops ⟨w, []⟩ [.paint, .align false, .bundle false c.compensateBias, .outliers]).world,
       ops.shots (Run.steps ops ⟨w, []⟩ [.paint, .align false, .bundle false c.compensateBias, .outliers]).world,
       ops.points (Run.steps ops ⟨w, []⟩ [.paint, .align false, .bundle false c.compensateBias, .outliers]).world⟩ := by
    unfold newMemory start
    have e2 := hk.paint (Run.steps ops ⟨w, []⟩ [.paint, .align false, .bundle false c.compensateBias, .outliers]).world
    have e3 := hk.shots .paint (Run.steps ops ⟨w, []⟩
      [.paint, .align false, .bundle false c.compensateBias, .outliers]).world (fun im e => by cases e)
    rw [← e2, ← e3]
    rfl
  rw [e1]
  exact h1

/-- C122: everything is bundled at least once per `bundle_interval` images: whenever an image is tried, fewer than
`bundle_interval` (or none) have been added since the last bundle adjustment of everything. -/
theorem C122_interval {ops : Ops W Img} (hk : Keeps ops) (c : Config) (fuel : ℕ) (w : W) (images : List Img)
    (pre post : List (Entry W Img)) (e : Entry W Img) (im : Img)
    (hJ : (grow ops c fuel w images).journal = pre ++ e :: post) (he : e.act = .resect im) :
    ∃ b, lastOf isBundle pre = some b ∧ ops.shots e.before < ops.shots b.after + max 1 c.interval := by
  have h0 : Spaced ops c (start ops c w).journal := spaced_steps _ (by simp) (fun pre e post im h => by simp at h)
  have h1 := spaced_loop hk (c := c) fuel (images := images) (mem_start hk c w) (by
    simp only [newMemory]
    have : 1 ≤ max 1 c.interval := le_max_left _ _
    omega) h0
  have h2 : Spaced ops c (grow ops c fuel w images).journal := by
    unfold grow finish
    refine spaced_step ?_ _ (fun im e => by cases e)
    split
    · exact spaced_steps _ (by simp) (spaced_steps _ (by simp) (spaced_step h1 _ (fun im e => by cases e)))
    · exact spaced_steps _ (by simp) (spaced_step h1 _ (fun im e => by cases e))
  exact h2 pre e post im hJ he

/-! ### What is done after an image is added -/

/-- What may follow when nothing is done. -/
def Allowed (a : Act Img) : Prop := a = .paint ∨ a = .align true ∨ ∃ im, a = .resect im

/-- The triangulation `t` of new shots comes after an image was resected with those shots and their poses were
bundled, and is followed by what the numbers of points and shots call for. -/
def Decided (ops : Ops W Img) (c : Config) (pre : List (Entry W Img)) (t : Entry W Img) (new : List Img)
    (post : List (Entry W Img)) : Prop :=
  ∃ (o o' e1 e2 : Entry W Img) (pre' : List (Entry W Img)) (im : Img),
    lastOf isOutliers pre = some o ∧ afterRetriangulate pre = some o' ∧
    pre = pre' ++ [e1, e2] ∧ e1.act = .resect im ∧ ops.resected e1.before im = some new ∧ e2.act = .shotPoses new ∧
    ((c.retriangulation = true ∧
        (ops.points o'.after : ℚ) * c.retriangulationRatio < (ops.points t.after : ℚ)) →
      [.align false, .bundle false c.compensateBias, .retriangulate, .bundle false c.compensateBias, .outliers] <+:
        post.map (·.act)) ∧
    (¬ (c.retriangulation = true ∧
        (ops.points o'.after : ℚ) * c.retriangulationRatio < (ops.points t.after : ℚ)) →
      (((ops.points o.after : ℚ) * c.newPointsRatio ≤ (ops.points t.after : ℚ) ∨
          ops.shots o.after + c.interval ≤ ops.shots t.after) →
        [.align false, .bundle false c.compensateBias, .outliers] <+: post.map (·.act)) ∧
      (¬ ((ops.points o.after : ℚ) * c.newPointsRatio ≤ (ops.points t.after : ℚ) ∨
          ops.shots o.after + c.interval ≤ ops.shots t.after) →
        (0 < c.localRadius → [.bundleLocal im, .outliersLocal] <+: post.map (·.act)) ∧
        (c.localRadius = 0 → ∀ a ∈ (post.map (·.act)).head?, Allowed a)))

theorem decided_append {ops : Ops W Img} {c : Config} {pre post : List (Entry W Img)} {t : Entry W Img}
    {new : List Img} (h : Decided ops c pre t new post) (K : List (Entry W Img))
    (hK : post = [] → ∀ e ∈ K.head?, Allowed e.act) : Decided ops c pre t new (post ++ K) := by
  obtain ⟨o, o', e1, e2, pre', im, h1, h2, h3, h4, h5, h6, h7, h8⟩ := h
  refine ⟨o, o', e1, e2, pre', im, h1, h2, h3, h4, h5, h6, ?_, ?_⟩
  · intro hr
    rw [List.map_append]
    exact (h7 hr).trans (List.prefix_append _ _)
  · intro hr
    obtain ⟨g1, g2⟩ := h8 hr
    refine ⟨?_, ?_⟩
    · intro hb
      rw [List.map_append]
      exact (g1 hb).trans (List.prefix_append _ _)
    · intro hb
      obtain ⟨k1, k2⟩ := g2 hb
      refine ⟨?_, ?_⟩
      · intro hl
        rw [List.map_append]
        exact (k1 hl).trans (List.prefix_append _ _)
      · intro hl a ha
        cases post with
        | nil =>
          rw [List.nil_append, List.head?_map] at ha
          obtain ⟨e, he, rfl⟩ := Option.map_eq_some_iff.1 ha
          exact hK rfl e he
        | cons x post => exact k2 hl a ha

/-- All triangulations of a journal are as they should be. -/
def Decisions (ops : Ops W Img) (c : Config) (J : List (Entry W Img)) : Prop :=
  ∀ pre t post new, J = pre ++ t :: post → t.act = .triangulate new → Decided ops c pre t new post

theorem decisions_step {ops : Ops W Img} {c : Config} {r : Run W Img} (h : Decisions ops c r.journal) {a : Act Img}
    (ha : Allowed a ∨ (∃ l, r.journal.getLast? = some l ∧ ∀ new, l.act ≠ .triangulate new))
    (ht : ∀ new, a ≠ .triangulate new) : Decisions ops c (r.step ops a).journal := by
  intro pre t post new hJ he
  rcases snoc_split hJ with ⟨rfl, rfl, rfl⟩ | ⟨post', rfl, hJ'⟩
  · exact absurd he (ht new)
  · refine decided_append (h pre t post' new hJ' he) _ ?_
    rintro rfl e' he'
    cases he'
    rcases ha with ha | ⟨l, hl, hn⟩
    · exact ha
    · rw [hJ', List.getLast?_concat] at hl
      cases hl
      exact absurd he (hn new)

theorem last_step (ops : Ops W Img) (r : Run W Img) (a : Act Img) :
    (r.step ops a).journal.getLast? = some ⟨r.world, a, ops.exec a r.world⟩ := List.getLast?_concat

theorem decisions_steps {ops : Ops W Img} {c : Config} (l : List (Act Img)) {r : Run W Img}
    (h : Decisions ops c r.journal)
    (ha : (∀ a ∈ l.head?, Allowed a) ∨ (∃ l, r.journal.getLast? = some l ∧ ∀ new, l.act ≠ .triangulate new))
    (ht : ∀ a ∈ l, ∀ new, a ≠ .triangulate new) : Decisions ops c (r.steps ops l).journal := by
  induction l generalizing r with
  | nil => exact h
  | cons a l ih =>
    have h1 := ht a List.mem_cons_self
    refine ih (decisions_step h (ha.imp (fun h => h a rfl) id) h1) ?_ (fun b hb => ht b (List.mem_cons_of_mem _ hb))
    exact Or.inr ⟨_, last_step ops r a, h1⟩

/-- The journal entries of steps. -/
def entries (ops : Ops W Img) (w : W) : List (Act Img) → List (Entry W Img)
  | [] => []
  | a :: l => ⟨w, a, ops.exec a w⟩ :: entries ops (ops.exec a w) l

theorem steps_journal (ops : Ops W Img) (l : List (Act Img)) (r : Run W Img) :
    (r.steps ops l).journal = r.journal ++ entries ops r.world l := by
  induction l generalizing r with
  | nil => simp [steps_nil, entries]
  | cons a l ih =>
    rw [steps_cons, ih]
    simp [Run.step, entries]

theorem entries_acts (ops : Ops W Img) (l : List (Act Img)) (w : W) : (entries ops w l).map (·.act) = l := by
  induction l generalizing w with
  | nil => rfl
  | cons a l ih => simp [entries, ih]

/-- Appending a triangulation with what follows. -/
theorem decisions_block {ops : Ops W Img} {c : Config} {J B : List (Entry W Img)} {e2 t : Entry W Img} {new : List Img}
    (h : Decisions ops c J) (hl : ∃ l, J.getLast? = some l ∧ ∀ new, l.act ≠ .triangulate new)
    (h2 : ∀ new, e2.act ≠ .triangulate new) (htr : t.act = .triangulate new)
    (hB : ∀ e ∈ B, ∀ new, e.act ≠ .triangulate new) (hd : Decided ops c (J ++ [e2]) t new B) :
    Decisions ops c (J ++ e2 :: t :: B) := by
  intro pre x post new' hJ hx
  rcases List.append_eq_append_iff.1 hJ with ⟨as, e1, e3⟩ | ⟨bs, e1, e3⟩
  · -- x in the new part
    cases as with
    | nil =>
      simp only [List.nil_append, List.cons.injEq] at e3
      rw [← e3.1] at hx
      exact absurd hx (h2 new')
    | cons y as =>
      simp only [List.cons_append, List.cons.injEq] at e3
      obtain ⟨rfl, e3⟩ := e3
      cases as with
      | nil =>
        simp only [List.nil_append, List.cons.injEq] at e3
        obtain ⟨rfl, rfl⟩ := e3
        rw [htr] at hx
        cases hx
        rw [e1]
        exact hd
      | cons z as =>
        simp only [List.cons_append, List.cons.injEq] at e3
        obtain ⟨rfl, e3⟩ := e3
        exact absurd hx (hB x (by rw [e3]; simp) new')
  · cases bs with
    | nil =>
      simp only [List.nil_append, List.cons.injEq] at e3
      rw [e3.1] at hx
      exact absurd hx (h2 new')
    | cons y bs =>
      simp only [List.cons_append, List.cons.injEq] at e3
      obtain ⟨rfl, rfl⟩ := e3
      refine decided_append (h pre x bs new' e1 hx) _ ?_
      rintro rfl
      obtain ⟨l, hl1, hl2⟩ := hl
      rw [e1, List.getLast?_concat] at hl1
      cases hl1
      exact absurd hx (hl2 new')

theorem decisions_settle {ops : Ops W Img} (hk : Keeps ops) {c : Config} {r : Run W Img} {m : Memory} {im : Img}
    {new : List Img} (hm : Mem ops r m) (h : Decisions ops c r.journal)
    (hl : ∃ l, r.journal.getLast? = some l ∧ l.act = .resect im ∧ ops.resected l.before im = some new) :
    Decisions ops c (settle ops c r m im new).1.journal := by
  obtain ⟨l, l1, l2, l3⟩ := hl
  obtain ⟨J', hJ'⟩ : ∃ J', r.journal = J' ++ [l] := by
    rcases List.eq_nil_or_concat r.journal with e | ⟨J', a, e⟩
    · rw [e] at l1; cases l1
    · rw [e, List.concat_eq_append, List.getLast?_concat] at l1
      cases l1
      exact ⟨J', by rw [e, List.concat_eq_append]⟩
  obtain ⟨r1, e1, hc⟩ := settle_cases ops c r m im new
  have hw : r1.world = ops.exec (.triangulate new) (ops.exec (.shotPoses new) r.world) := by rw [e1]; rfl
  have hm1 : Mem ops (r.step ops (.shotPoses new)) m := mem_plain hm rfl
  obtain ⟨o, o1, o2, o3⟩ := hm1.outliers
  obtain ⟨o', p1, p2⟩ := hm1.retri
  obtain ⟨t, ht⟩ : ∃ t : Entry W Img, t = ⟨ops.exec (.shotPoses new) r.world, .triangulate new, r1.world⟩ := ⟨_, rfl⟩
  have hj1 : r1.journal = r.journal ++ [⟨r.world, .shotPoses new, ops.exec (.shotPoses new) r.world⟩, t] := by
    rw [e1, ht, hw, steps_journal]
    rfl
  have main : ∀ B : List (Act Img), (∀ a ∈ B, ∀ new, a ≠ .triangulate new) →
      ((c.retriangulation = true ∧ (m.retriPoints : ℚ) * c.retriangulationRatio < (ops.points r1.world : ℚ)) →
        [.align false, .bundle false c.compensateBias, .retriangulate, .bundle false c.compensateBias, .outliers] <+: B) →
      (¬ (c.retriangulation = true ∧ (m.retriPoints : ℚ) * c.retriangulationRatio < (ops.points r1.world : ℚ)) →
        (((m.bundlePoints : ℚ) * c.newPointsRatio ≤ (ops.points r1.world : ℚ) ∨
          m.bundleShots + c.interval ≤ ops.shots r1.world) →
          [.align false, .bundle false c.compensateBias, .outliers] <+: B) ∧
        (¬ ((m.bundlePoints : ℚ) * c.newPointsRatio ≤ (ops.points r1.world : ℚ) ∨
          m.bundleShots + c.interval ≤ ops.shots r1.world) →
          (0 < c.localRadius → [.bundleLocal im, .outliersLocal] <+: B) ∧
          (c.localRadius = 0 → ∀ a ∈ B.head?, Allowed a))) →
      Decisions ops c (r1.steps ops B).journal := by
    intro B hB q1 q2
    rw [steps_journal, hj1, List.append_assoc, List.cons_append, List.cons_append, List.nil_append]
    refine decisions_block (t := t) (new := new) h ⟨l, l1, fun n e => by rw [l2] at e; cases e⟩ (fun n e => by cases e)
      (by rw [ht]) ?_ ?_
    · intro e he n hn
      have : e.act ∈ B := by
        rw [← entries_acts ops B r1.world]
        exact List.mem_map_of_mem he
      exact hB _ this n hn
    · refine ⟨o, o', l, ⟨r.world, .shotPoses new, ops.exec (.shotPoses new) r.world⟩, J', im, o1, p1, ?_, l2, l3, rfl, ?_⟩
      · rw [hJ']
        simp
      · rw [entries_acts, o2, o3, p2, ht]
        exact ⟨q1, q2⟩
  rcases hc with ⟨hr, e⟩ | ⟨hr, ⟨hb, e⟩ | ⟨hb, ⟨hp, e⟩ | ⟨hp, e⟩⟩⟩ <;> rw [e]
  · exact main _ (by simp) (fun _ => List.prefix_rfl) (fun hn => absurd hr hn)
  · exact main _ (by simp) (fun hn => absurd hn hr) (fun _ => ⟨fun _ => List.prefix_rfl, fun hn => absurd hb hn⟩)
  · exact main _ (by simp) (fun hn => absurd hn hr) (fun _ => ⟨fun hn => absurd hn hb,
      fun _ => ⟨fun _ => List.prefix_rfl, fun hn => by omega⟩⟩)
  · exact main [] (by simp) (fun hn => absurd hn hr) (fun _ => ⟨fun hn => absurd hn hb,
      fun _ => ⟨fun hn => by omega, fun _ a ha => by cases ha⟩⟩)

theorem decisions_try {ops : Ops W Img} {c : Config} {m : Memory} (l : List Img) {r : Run W Img}
    (hm : Mem ops r m) (h : Decisions ops c r.journal) :
    Mem ops (tryCandidates ops r l).1 m ∧ Decisions ops c (tryCandidates ops r l).1.journal ∧
    ∀ im new, (tryCandidates ops r l).2 = some (im, new) → ∃ e, (tryCandidates ops r l).1.journal.getLast? = some e ∧
      e.act = .resect im ∧ ops.resected e.before im = some new := by
  induction l generalizing r with
  | nil => exact ⟨hm, h, fun im new e => by cases e⟩
  | cons im l ih =>
    have h1 : Decisions ops c (r.step ops (.resect im)).journal :=
      decisions_step h (Or.inl (Or.inr (Or.inr ⟨im, rfl⟩))) (fun n e => by cases e)
    have h2 : Mem ops (r.step ops (.resect im)) m := mem_plain hm rfl
    unfold tryCandidates
    cases hr : ops.resected r.world im with
    | some new =>
      refine ⟨h2, h1, fun im' new' e => ?_⟩
      cases e
      exact ⟨_, last_step ops r _, rfl, hr⟩
    | none => exact ih h2 h1

theorem decisions_loop {ops : Ops W Img} (hk : Keeps ops) {c : Config} (fuel : ℕ) {m : Memory} {images : List Img}
    {r : Run W Img} (hm : Mem ops r m) (h : Decisions ops c r.journal) :
    Decisions ops c (loop ops c fuel r m images).journal := by
  induction fuel generalizing r m images with
  | zero => exact h
  | succ fuel ih =>
    unfold loop
    have h0 : Mem ops (savePartial ops c r) m ∧ Decisions ops c (savePartial ops c r).journal := by
      unfold savePartial
      split
      · exact ⟨mem_plains _ (by simp [plain]) hm,
          decisions_steps _ h (Or.inl (fun a ha => by cases ha; exact Or.inl rfl)) (by simp)⟩
      · exact ⟨hm, h⟩
    have h1 := decisions_try (ops.candidates (savePartial ops c r).world images) h0.1 h0.2
    simp only
    rcases ht : tryCandidates ops (savePartial ops c r) (ops.candidates (savePartial ops c r).world images) with ⟨r1, o⟩
    rw [ht] at h1
    cases o with
    | none => exact h1.2.1
    | some x =>
      exact ih (mem_settle hk (c := c) h1.1 x.1 x.2).1 (decisions_settle hk h1.1 h1.2.1 (h1.2.2 x.1 x.2 rfl))

/-- C122: new shots are triangulated after their image was resected and their poses were bundled. Then everything is
aligned, bundled, re-triangulated, bundled and cleaned if re-triangulation is on and there are more points than its
ratio times those at its last time; otherwise everything is aligned, bundled and cleaned if there are as many points
as the ratio times those at the last cleaning, or `bundle_interval` more shots; otherwise the neighbourhood of the
image is bundled and cleaned if it has a radius; otherwise nothing is done. -/
theorem C122_decisions {ops : Ops W Img} (hk : Keeps ops) (c : Config) (fuel : ℕ) (w : W) (images : List Img)
    (pre post : List (Entry W Img)) (t : Entry W Img) (new : List Img)
    (hJ : (grow ops c fuel w images).journal = pre ++ t :: post) (ht : t.act = .triangulate new) :
    Decided ops c pre t new post := by
  have h0 : Decisions ops c (start ops c w).journal :=
    decisions_steps _ (fun pre e post im h => by simp at h) (Or.inl (fun a ha => by cases ha; exact Or.inl rfl)) (by simp)
  have h1 := decisions_loop hk (c := c) fuel (images := images) (mem_start hk c w) h0
  have h2 : Decisions ops c (grow ops c fuel w images).journal := by
    unfold grow finish
    have g1 := decisions_step h1 (a := .align true) (Or.inl (Or.inr (Or.inl rfl))) (fun n e => by cases e)
    have nt : ∀ (r : Run W Img) (a : Act Img), (∀ new, a ≠ .triangulate new) →
        ∃ l, (r.step ops a).journal.getLast? = some l ∧ ∀ new, l.act ≠ .triangulate new :=
      fun r a h => ⟨_, last_step ops r a, h⟩
    have g2 := fun comp => decisions_steps [.bundle true comp, .outliers] g1 (Or.inr (nt _ _ (by simp))) (by simp)
    refine decisions_step ?_ (Or.inl (Or.inl rfl)) (fun n e => by cases e)
    split
    · exact decisions_steps _ (g2 _) (Or.inr (nt _ _ (by simp))) (by simp)
    · exact g2 _
  exact h2 pre t post new hJ ht

/-! ### Beginning, end and order -/

/-- C122: growing begins with painting, alignment, a bundle adjustment, cleaning and painting, and ends with an
alignment, a bundle adjustment, the filters if they are on, and painting; ground control points are used by the last
bundle adjustment only, which compensates the GPS bias when it is asked for and the last alignment succeeded. -/
theorem C122_ends (ops : Ops W Img) (c : Config) (fuel : ℕ) (w : W) (images : List Img) :
    ∃ (middle : List (Entry W Img)) (w' : W), (∀ e ∈ middle, ∀ b, e.act ≠ .bundle true b ∧ e.act ≠ .align true) ∧
      (∃ last, ([.paint, .align false, .bundle false c.compensateBias, .outliers, .paint] ++ middle.map (·.act) ++
        [.align true, .bundle true (c.compensateBias && ops.aligned w'), .outliers] ++ last ++ [.paint] =
        (grow ops c fuel w images).journal.map (·.act)) ∧
        last = if c.filterFinal then [.filterAngles, .filterIsolated] else []) ∧
      ∃ e ∈ (grow ops c fuel w images).journal, e.act = .align true ∧ e.before = w' := by
  have key : ∀ (r : Run W Img) m images, ∃ middle : List (Entry W Img),
      (∀ e ∈ middle, ∀ b, e.act ≠ .bundle true b ∧ e.act ≠ .align true) ∧
      (loop ops c fuel r m images).journal = r.journal ++ middle := by
    have st : ∀ (l : List (Act Img)) (r : Run W Img), (∀ a ∈ l, ∀ b, a ≠ .bundle true b ∧ a ≠ .align true) →
        ∃ middle : List (Entry W Img), (∀ e ∈ middle, ∀ b, e.act ≠ .bundle true b ∧ e.act ≠ .align true) ∧
          (r.steps ops l).journal = r.journal ++ middle := by
      intro l r hl
      refine ⟨_, ?_, steps_journal ops l r⟩
      intro e he
      refine hl e.act ?_
      rw [← entries_acts ops l r.world]
      exact List.mem_map_of_mem he
    have tr : ∀ (l : List Img) (r : Run W Img),
        ∃ middle : List (Entry W Img), (∀ e ∈ middle, ∀ b, e.act ≠ .bundle true b ∧ e.act ≠ .align true) ∧
          (tryCandidates ops r l).1.journal = r.journal ++ middle := by
      intro l
      induction l with
      | nil => exact fun r => ⟨[], by simp, by simp [tryCandidates]⟩
      | cons im l ih =>
        intro r
        unfold tryCandidates
        cases ops.resected r.world im with
        | some new => exact ⟨_, by simp, rfl⟩
        | none =>
          obtain ⟨mid, h1, h2⟩ := ih (r.step ops (.resect im))
          refine ⟨⟨r.world, .resect im, ops.exec (.resect im) r.world⟩ :: mid, ?_, ?_⟩
          · intro e he
            rcases List.mem_cons.1 he with rfl | he
            · simp
            · exact h1 e he
          · simp only
            rw [h2]
            simp [Run.step]
    have se : ∀ (r : Run W Img) m im new,
        ∃ middle : List (Entry W Img), (∀ e ∈ middle, ∀ b, e.act ≠ .bundle true b ∧ e.act ≠ .align true) ∧
          (settle ops c r m im new).1.journal = r.journal ++ middle := by
      intro r m im new
      obtain ⟨r1, e1, hc⟩ := settle_cases ops c r m im new
      have e2 : ∀ l, r1.steps ops l = r.steps ops (.shotPoses new :: .triangulate new :: l) := fun l => by rw [e1]; rfl
      rcases hc with ⟨_, e⟩ | ⟨_, ⟨_, e⟩ | ⟨hn, ⟨_, e⟩ | ⟨_, e⟩⟩⟩ <;> rw [e]
      · rw [e2]; exact st _ _ (by simp)
      · rw [e2]; exact st _ _ (by simp)
      · rw [e2]; exact st _ _ (by simp)
      · rw [e1]; exact st _ _ (by simp)
    induction fuel with
    | zero => exact fun r m images => ⟨[], by simp, by simp [loop]⟩
    | succ fuel ih =>
      intro r m images
      unfold loop
      have h0 : ∃ middle : List (Entry W Img), (∀ e ∈ middle, ∀ b, e.act ≠ .bundle true b ∧ e.act ≠ .align true) ∧
          (savePartial ops c r).journal = r.journal ++ middle := by
        unfold savePartial
        split
        · exact st _ _ (by simp)
        · exact ⟨[], by simp, by simp⟩
      obtain ⟨m0, a0, b0⟩ := h0
      obtain ⟨m1, a1, b1⟩ := tr (ops.candidates (savePartial ops c r).world images) (savePartial ops c r)
      simp only
      rcases ht : tryCandidates ops (savePartial ops c r) (ops.candidates (savePartial ops c r).world images) with ⟨r1, o⟩
      rw [ht] at b1
      have hj : r1.journal = r.journal ++ (m0 ++ m1) := by
        rw [← List.append_assoc, ← b0]
        exact b1
      have am : ∀ e ∈ m0 ++ m1, ∀ b, e.act ≠ .bundle true b ∧ e.act ≠ .align true := by
        intro e he
        rcases List.mem_append.1 he with he | he
        · exact a0 e he
        · exact a1 e he
      cases o with
      | none => exact ⟨_, am, hj⟩
      | some x =>
        obtain ⟨m2, a2, b2⟩ := se r1 m x.1 x.2
        obtain ⟨m3, a3, b3⟩ := ih (settle ops c r1 m x.1 x.2).1 (settle ops c r1 m x.1 x.2).2 (ops.minus images x.2)
        refine ⟨(m0 ++ m1) ++ m2 ++ m3, ?_, ?_⟩
        · intro e he
          rcases List.mem_append.1 he with he | he
          · rcases List.mem_append.1 he with he | he
            · exact am e he
            · exact a2 e he
          · exact a3 e he
        · simp only
          rw [b3, b2, hj]
          simp
  obtain ⟨middle, h1, h2⟩ := key (start ops c w) (newMemory ops (start ops c w).world) images
  have hg : grow ops c fuel w images =
      finish ops c (loop ops c fuel (start ops c w) (newMemory ops (start ops c w).world) images) := rfl
  rw [hg]
  generalize hL : loop ops c fuel (start ops c w) (newMemory ops (start ops c w).world) images = r at h2
  have hs : (start ops c w).journal.map (·.act) =
      [.paint, .align false, .bundle false c.compensateBias, .outliers, .paint] := by
    unfold start
    rw [steps_journal, List.nil_append, entries_acts]
  have hcomp : (if (!ops.aligned r.world && c.compensateBias) = true then false else c.compensateBias) =
      (c.compensateBias && ops.aligned r.world) := by
    cases ops.aligned r.world <;> cases c.compensateBias <;> rfl
  refine ⟨middle, r.world, h1, ⟨_, ?_, rfl⟩, ?_⟩
  · unfold finish
    simp only [hcomp]
    cases c.filterFinal <;>
    · simp only [Run.step, steps_journal, List.map_append, entries_acts, h2, hs, Bool.false_eq_true, if_false, if_true]
      simp
  · refine ⟨⟨r.world, .align true, ops.exec (.align true) r.world⟩, ?_, rfl, rfl⟩
    unfold finish
    simp only
    cases c.filterFinal <;>
    · simp only [Run.step, steps_journal, Bool.false_eq_true, if_false, if_true]
      simp

/-! ### Partial reconstructions -/

/-- A saved partial reconstruction. -/
def isSave : Act Img → Bool
  | .save => true
  | _ => false

/-- A triangulation of new shots: one per image that is added. -/
def isTriangulate : Act Img → Bool
  | .triangulate _ => true
  | _ => false

/-- How many steps of a kind. -/
def count (p : Act Img → Bool) (J : List (Entry W Img)) : ℕ := J.countP (fun e => p e.act)

theorem count_steps (ops : Ops W Img) (p : Act Img → Bool) (l : List (Act Img)) (r : Run W Img) :
    count p (r.steps ops l).journal = count p r.journal + l.countP p := by
  unfold count
  rw [steps_journal, List.countP_append]
  congr 1
  conv_rhs => rw [← entries_acts ops l r.world]
  rw [List.countP_map]
  rfl

theorem count_step (ops : Ops W Img) (p : Act Img → Bool) (a : Act Img) (r : Run W Img) :
    count p (r.step ops a).journal = count p r.journal + [a].countP p := count_steps ops p [a] r

theorem count_try (ops : Ops W Img) (p : Act Img → Bool) (hp : ∀ im, p (.resect im) = false) (l : List Img)
    (r : Run W Img) : count p (tryCandidates ops r l).1.journal = count p r.journal := by
  induction l generalizing r with
  | nil => rfl
  | cons im l ih =>
    unfold tryCandidates
    cases ops.resected r.world im with
    | some new => simp [count_step, hp]
    | none => rw [ih]; simp [count_step, hp]

theorem count_settle (ops : Ops W Img) (c : Config) (r : Run W Img) (m : Memory) (im : Img) (new : List Img) :
    count isSave (settle ops c r m im new).1.journal = count isSave r.journal ∧
    count isTriangulate (settle ops c r m im new).1.journal = count isTriangulate r.journal + 1 := by
  obtain ⟨r1, e1, hc⟩ := settle_cases ops c r m im new
  rcases hc with ⟨_, e⟩ | ⟨_, ⟨_, e⟩ | ⟨hn, ⟨_, e⟩ | ⟨_, e⟩⟩⟩ <;> rw [e] <;> subst e1 <;>
    simp only [count_steps] <;> simp [isSave, isTriangulate]

theorem count_loop (ops : Ops W Img) (c : Config) (fuel : ℕ) (r : Run W Img) (m : Memory) (images : List Img) :
    (c.savePartial = false → count isSave (loop ops c fuel r m images).journal = count isSave r.journal) ∧
    (c.savePartial = true → ∃ k d, (d = 0 ∨ d = 1) ∧
      count isTriangulate (loop ops c fuel r m images).journal = count isTriangulate r.journal + k ∧
      count isSave (loop ops c fuel r m images).journal = count isSave r.journal + k + d) := by
  induction fuel generalizing r m images with
  | zero => exact ⟨fun _ => rfl, fun _ => ⟨0, 0, Or.inl rfl, rfl, rfl⟩⟩
  | succ fuel ih =>
    unfold loop
    have s1 : c.savePartial = false → count isSave (savePartial ops c r).journal = count isSave r.journal := by
      intro h; unfold savePartial; rw [h]; rfl
    have s2 : c.savePartial = true → count isSave (savePartial ops c r).journal = count isSave r.journal + 1 ∧
        count isTriangulate (savePartial ops c r).journal = count isTriangulate r.journal := by
      intro h; unfold savePartial; rw [h, if_pos rfl]; simp only [count_steps]; simp [isSave, isTriangulate]
    have t1 := count_try ops isSave (fun _ => rfl) (ops.candidates (savePartial ops c r).world images)
      (savePartial ops c r)
    have t2 := count_try ops isTriangulate (fun _ => rfl) (ops.candidates (savePartial ops c r).world images)
      (savePartial ops c r)
    simp only
    rcases ht : tryCandidates ops (savePartial ops c r) (ops.candidates (savePartial ops c r).world images) with ⟨r1, o⟩
    rw [ht] at t1 t2
    simp only at t1 t2
    cases o with
    | none =>
      refine ⟨fun h => t1.trans (s1 h), fun h => ⟨0, 1, Or.inr rfl, ?_, ?_⟩⟩
      · simp only; rw [t2, (s2 h).2, Nat.add_zero]
      · simp only; rw [t1, (s2 h).1]
    | some x =>
      obtain ⟨q1, q2⟩ := count_settle ops c r1 m x.1 x.2
      obtain ⟨i1, i2⟩ := ih (settle ops c r1 m x.1 x.2).1 (settle ops c r1 m x.1 x.2).2 (ops.minus images x.2)
      refine ⟨fun h => ?_, fun h => ?_⟩
      · simp only
        rw [i1 h, q1, t1, s1 h]
      · obtain ⟨k, d, hd, k1, k2⟩ := i2 h
        refine ⟨k + 1, d, hd, ?_, ?_⟩
        · simp only
          rw [k1, q2, t2, (s2 h).2]
          omega
        · simp only
          rw [k2, q1, t1, (s2 h).1]
          omega

/-- C122: partial reconstructions are saved only when asked for, and then once before every image that is added and
at most once more. -/
theorem C122_saves (ops : Ops W Img) (c : Config) (fuel : ℕ) (w : W) (images : List Img) :
    (c.savePartial = false → count isSave (grow ops c fuel w images).journal = 0) ∧
    (c.savePartial = true → count isSave (grow ops c fuel w images).journal =
        count isTriangulate (grow ops c fuel w images).journal ∨
      count isSave (grow ops c fuel w images).journal =
        count isTriangulate (grow ops c fuel w images).journal + 1) := by
  obtain ⟨h1, h2⟩ := count_loop ops c fuel (start ops c w) (newMemory ops (start ops c w).world) images
  have hs : count isSave (start ops c w).journal = 0 ∧ count isTriangulate (start ops c w).journal = 0 := by
    unfold start
    simp only [count_steps]
    constructor <;> rfl
  have hf : ∀ r, count isSave (finish ops c r).journal = count isSave r.journal ∧
      count isTriangulate (finish ops c r).journal = count isTriangulate r.journal := by
    intro r
    unfold finish
    simp only
    cases c.filterFinal <;> simp only [count_step, count_steps, if_true, Bool.false_eq_true, if_false] <;>
      simp [isSave, isTriangulate]
  unfold grow
  simp only
  rw [(hf _).1, (hf _).2]
  refine ⟨fun h => by rw [h1 h, hs.1], fun h => ?_⟩
  obtain ⟨k, d, hd, k1, k2⟩ := h2 h
  rw [k1, k2, hs.1, hs.2]
  omega

/-! ### A run -/

/-- A world of points and shots: resection of image `i` adds a shot when `i` is even, triangulation adds ten points. -/
def exOps : Ops (ℕ × ℕ) ℕ where
  exec a w := match a with
    | .resect im => if im % 2 = 0 then (w.1, w.2 + 1) else w
    | .triangulate _ => (w.1 + 10, w.2)
    | .outliers => (w.1 - 1, w.2)
    | _ => w
  aligned _ := false
  resected _ im := if im % 2 = 0 then some [im] else none
  candidates _ l := l
  minus l new := l.filter (fun x => decide (x ∉ new))
  points := Prod.fst
  shots := Prod.snd

/-- Options of the example. -/
def exConfig : Config := ⟨2, 6 / 5, true, 3 / 2, false, 1, true, false⟩

theorem exKeeps : Keeps exOps := by
  constructor
  · intro a w h
    cases a with
    | resect im =>
      have := h im rfl
      simp only [exOps] at this ⊢
      split at this
      · cases this
      · rename_i hn
        simp [hn]
    | _ => rfl
  · intro w; rfl

/-- In this run an image cannot be resected, and the others are followed in turn by a local and by a full bundle
adjustment. -/
example : ((grow exOps exConfig 10 (101, 2) [1, 2, 4, 6, 8, 10]).journal.map (·.act)) =
    [.paint, .align false, .bundle false true, .outliers, .paint,
     .resect 1, .resect 2, .shotPoses [2], .triangulate [2], .bundleLocal 2, .outliersLocal,
     .resect 1, .resect 4, .shotPoses [4], .triangulate [4], .align false, .bundle false true, .outliers,
     .resect 1, .resect 6, .shotPoses [6], .triangulate [6], .bundleLocal 6, .outliersLocal,
     .resect 1, .resect 8, .shotPoses [8], .triangulate [8], .align false, .bundle false true, .outliers,
     .resect 1, .resect 10, .shotPoses [10], .triangulate [10], .bundleLocal 10, .outliersLocal,
     .resect 1, .align true, .bundle true false, .outliers, .paint] := by decide +kernel

/-- With a smaller ratio there are re-triangulations. -/
example : ((grow exOps { exConfig with retriangulationRatio := 11 / 10 } 10 (101, 2) [2, 4]).journal.map (·.act)) =
    [.paint, .align false, .bundle false true, .outliers, .paint,
     .resect 2, .shotPoses [2], .triangulate [2], .bundleLocal 2, .outliersLocal,
     .resect 4, .shotPoses [4], .triangulate [4], .align false, .bundle false true, .retriangulate, .bundle false true,
       .outliers,
     .align true, .bundle true false, .outliers, .paint] := by decide +kernel

end Verif.GrowSteps
