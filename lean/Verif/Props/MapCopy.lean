import Verif.Lemmas.MapCopy
import Mathlib.Algebra.Group.TypeTags.Basic
import Mathlib.Algebra.Group.Int.Defs

/-! # C109: copying a map, and adding the shots of another map -/
namespace Verif.MapCopy
set_option linter.unusedSectionVars false
set_option linter.unusedSimpArgs false

variable {Id A X C K B P D M R : Type} [DecidableEq Id] [Group P]
variable {df : Defaults B C D M R} {src c : FMap Id A X C K B P D M R} {obs : Bool}

/-- C109: a well formed map whose rig instances do not mix shots and pano shots can be copied; the
copy has the same reference, cameras and biases. -/
theorem C109_copy (hc : Consistent src) (hu : Unmixed src) (df : Defaults B C D M R) (obs : Bool) :
    ∃ c, deepCopy df src obs = some c ∧ c.reference = src.reference ∧
      (∀ k, c.cameras.get? k = src.cameras.get? k) ∧ ∀ k, c.bias.get? k = src.bias.get? k := by
  obtain ⟨c, base, h1, h2, h3, h4⟩ := deepCopy_spec (df := df) hc hu obs
  refine ⟨c, h1, ?_, ?_, h3⟩
  · exact h4.reference.trans h2.frame.reference
  · intro k
    have : c.cameras = base.cameras := h4.cameras
    rw [this]; exact h2.frame.cams k

/-- C109: the copy has the same shots, with the same camera, rig, attributes; the mesh is not
copied. -/
theorem C109_shots (hc : Consistent src) (hu : Unmixed src) (h : deepCopy df src obs = some c) :
    (∀ s, (c.shots.get? s).isSome ↔ (src.shots.get? s).isSome) ∧
    ∀ s x sh, c.shots.get? s = some x → src.shots.get? s = some sh →
      x.camera = sh.camera ∧ x.inst = sh.inst ∧ x.rigCamera = sh.rigCamera ∧ x.attrs = sh.attrs ∧
      x.mesh = df.mesh := by
  obtain ⟨c', base, h1, h2, h3, h4⟩ := deepCopy_spec (df := df) hc hu obs
  rw [h] at h1
  obtain rfl := Option.some.inj h1
  refine ⟨h4.shotIds, fun s x sh hx hs => ?_⟩
  obtain ⟨a1, a2, a3, a4, a5, _⟩ := h4.shots s x sh hx hs
  exact ⟨a1, a2, a3, a4, a5⟩

/-- C109: and the same pano shots, but without mesh and without observations. -/
theorem C109_pano (hc : Consistent src) (hu : Unmixed src) (h : deepCopy df src obs = some c) (s : Id)
    (x : FShot Id A D M) : c.pano.get? s = some x ↔ ∃ sh, src.pano.get? s = some sh ∧
      x = ⟨sh.camera, sh.inst, sh.rigCamera, sh.attrs, df.mesh, [], []⟩ := by
  obtain ⟨c', base, h1, h2, h3, h4⟩ := deepCopy_spec (df := df) hc hu obs
  rw [h] at h1
  obtain rfl := Option.some.inj h1
  have hp : c.pano = base.pano := h4.pano
  have := h2.tables true s x
  rw [hp]
  constructor
  · intro hx
    obtain ⟨sh, a, _, b⟩ := this.1 hx
    exact ⟨sh, a, b⟩
  · rintro ⟨sh, a, b⟩
    exact this.2 ⟨sh, a, Or.inr ⟨_, Dict.mem_of_get? a, rfl⟩, b⟩

theorem members_ne (hc : Consistent src) (i : Id) (x : FInst Id P)
    (h : src.rigInstances.get? i = some x) : Inhabited' src i ↔ x.members ≠ [] := by
  constructor
  · intro hi he
    have : ∃ b s sh, (table src b).get? s = some sh ∧ sh.inst = i := by
      rcases hi with ⟨⟨s, sh⟩, h1, h2⟩ | ⟨⟨s, sh⟩, h1, h2⟩
      · exact ⟨false, s, sh, Dict.get?_of_mem hc.wfShots h1, h2⟩
      · exact ⟨true, s, sh, Dict.get?_of_mem hc.wfPano h1, h2⟩
    obtain ⟨b, s, sh, h1, rfl⟩ := this
    obtain ⟨y, h2, h3⟩ := hc.inst b s sh h1
    rw [h] at h2
    rw [← Option.some.inj h2, he] at h3
    simp at h3
  · intro hne
    obtain ⟨⟨s, e⟩, l, hl⟩ := List.exists_cons_of_ne_nil hne
    obtain ⟨sh, h1, h2, _⟩ := hc.member i x s e h
      (Dict.get?_of_mem (hc.wfMembers i x h) (by rw [hl]; simp))
    rcases hb : e.pano with _ | _
    · rw [hb] at h1; exact Or.inl ⟨_, Dict.mem_of_get? h1, h2⟩
    · rw [hb] at h1; exact Or.inr ⟨_, Dict.mem_of_get? h1, h2⟩

/-- C109: the rig instances of the copy are those that have a shot, unchanged; the rig cameras are
those that some shot or pano shot uses. The others are lost. -/
theorem C109_rig (hc : Consistent src) (hu : Unmixed src) (h : deepCopy df src obs = some c) :
    (∀ i x, c.rigInstances.get? i = some x ↔ src.rigInstances.get? i = some x ∧ x.members ≠ []) ∧
    ∀ rc p, c.rigCameras.get? rc = some p ↔ src.rigCameras.get? rc = some p ∧
      ((∃ s sh, src.shots.get? s = some sh ∧ sh.rigCamera = rc) ∨
        ∃ s sh, src.pano.get? s = some sh ∧ sh.rigCamera = rc) := by
  obtain ⟨c', base, h1, h2, h3, h4⟩ := deepCopy_spec (df := df) hc hu obs
  rw [h] at h1
  obtain rfl := Option.some.inj h1
  have hi : c.rigInstances = base.rigInstances := h4.rigInstances
  have hr : c.rigCameras = base.rigCameras := h4.rigCameras
  constructor
  · intro i x
    rw [hi]
    have := h2.insts i x
    refine this.trans ?_
    constructor
    · rintro ⟨a, b⟩; exact ⟨b, (members_ne hc i x b).1 a⟩
    · rintro ⟨a, b⟩; exact ⟨(members_ne hc i x a).2 b, a⟩
  · intro rc p
    rw [hr]
    refine (h2.rcs rc p).trans (and_congr_right fun _ => ?_)
    constructor
    · rintro ⟨i, x, s, e, _, a, b, rfl⟩
      obtain ⟨sh, q1, q2, q3⟩ := hc.member i x s e a b
      rcases hb : e.pano with _ | _
      · rw [hb] at q1; exact Or.inl ⟨s, sh, q1, q3⟩
      · rw [hb] at q1; exact Or.inr ⟨s, sh, q1, q3⟩
    · rintro (⟨s, sh, a, rfl⟩ | ⟨s, sh, a, rfl⟩)
      · obtain ⟨x, q1, q2⟩ := hc.inst false s sh a
        exact ⟨_, x, s, _, Or.inl ⟨_, Dict.mem_of_get? a, rfl⟩, q1, q2, rfl⟩
      · obtain ⟨x, q1, q2⟩ := hc.inst true s sh a
        exact ⟨_, x, s, _, Or.inr ⟨_, Dict.mem_of_get? a, rfl⟩, q1, q2, rfl⟩

/-- C109: every shot and every pano shot of the copy has the pose it has in the original. -/
theorem C109_poses (hc : Consistent src) (hu : Unmixed src) (h : deepCopy df src obs = some c)
    (s : Id) (x sh : FShot Id A D M) (p : P)
    (hx : (c.shots.get? s = some x ∧ src.shots.get? s = some sh) ∨
      (c.pano.get? s = some x ∧ src.pano.get? s = some sh)) :
    HasPose src sh p → HasPose c x p := by
  obtain ⟨r1, r2⟩ := C109_rig hc hu h
  rintro ⟨inst, rp, e1, e2, e3⟩
  have key : x.inst = sh.inst ∧ x.rigCamera = sh.rigCamera := by
    rcases hx with ⟨a, b⟩ | ⟨a, b⟩
    · obtain ⟨_, q1, q2, _⟩ := (C109_shots hc hu h).2 s x sh a b
      exact ⟨q1, q2⟩
    · obtain ⟨sh', q1, rfl⟩ := (C109_pano hc hu h s x).1 a
      rw [b] at q1
      obtain rfl := Option.some.inj q1
      exact ⟨rfl, rfl⟩
  refine ⟨inst, rp, (r1 _ _).2 ⟨key.1 ▸ e1, ?_⟩, (r2 _ _).2 ⟨key.2 ▸ e2, ?_⟩, e3⟩
  · refine (members_ne hc _ _ e1).1 ?_
    rcases hx with ⟨a, b⟩ | ⟨a, b⟩
    · exact Or.inl ⟨_, Dict.mem_of_get? b, rfl⟩
    · exact Or.inr ⟨_, Dict.mem_of_get? b, rfl⟩
  · rcases hx with ⟨a, b⟩ | ⟨a, b⟩
    · exact Or.inl ⟨s, sh, b, key.2.symm⟩
    · exact Or.inr ⟨s, sh, b, key.2.symm⟩

/-- C109: the points keep their positions and lose their colours. -/
theorem C109_points (hc : Consistent src) (hu : Unmixed src) (h : deepCopy df src obs = some c) :
    (∀ l, (c.landmarks.get? l).isSome ↔ (src.landmarks.get? l).isSome) ∧
    ∀ l y lm, c.landmarks.get? l = some y → src.landmarks.get? l = some lm →
      y.pos = lm.pos ∧ y.color = df.color := by
  obtain ⟨c', base, h1, h2, h3, h4⟩ := deepCopy_spec (df := df) hc hu obs
  rw [h] at h1
  obtain rfl := Option.some.inj h1
  refine ⟨h4.lmIds, fun l y lm hy hl => ?_⟩
  obtain ⟨a, b, _⟩ := h4.lms l y lm hy hl
  exact ⟨a, b⟩

/-- C109: when observations are asked for, every shot of the copy observes the same landmarks with
the same observations, can be asked by feature, and every landmark knows the shots; otherwise there
is no observation at all. -/
theorem C109_observations (hc : Consistent src) (hu : Unmixed src)
    (h : deepCopy df src obs = some c) :
    (∀ s x sh, c.shots.get? s = some x → src.shots.get? s = some sh →
      (∀ l o, x.lmObs.get? l = some o ↔ obs = true ∧ sh.lmObs.get? l = some o) ∧
      ∀ f l, x.lmId.get? f = some l ↔ obs = true ∧ sh.lmId.get? f = some l) ∧
    ∀ l y, c.landmarks.get? l = some y → ∀ s f, y.obs.get? s = some f ↔
      obs = true ∧ ∃ sh o, src.shots.get? s = some sh ∧ sh.lmObs.get? l = some o ∧ o.feat = f := by
  obtain ⟨c', base, h1, h2, h3, h4⟩ := deepCopy_spec (df := df) hc hu obs
  rw [h] at h1
  obtain rfl := Option.some.inj h1
  constructor
  · intro s x sh hx hs
    obtain ⟨_, _, _, _, _, a6, a7⟩ := h4.shots s x sh hx hs
    refine ⟨a6, fun f l => (a7 f l).trans ?_⟩
    rw [hc.features s sh f l hs]
  · intro l y hy
    obtain ⟨lm, hl⟩ := Option.isSome_iff_exists.1 ((h4.lmIds l).1 (by
      show (c.landmarks.get? l).isSome; rw [hy]; rfl))
    exact (h4.lms l y lm hy hl).2.2

/-- C109: `copy.deepcopy(reconstruction)`, whose memo is empty, gives a copy in which no shot and no
point has an observation. -/
theorem C109_default (hc : Consistent src) (hu : Unmixed src) (h : pyDeepCopy df [] src = some c) :
    (∀ s x, c.shots.get? s = some x → ∀ l, x.lmObs.get? l = none) ∧
    ∀ l y, c.landmarks.get? l = some y → ∀ s, y.obs.get? s = none := by
  have h' : deepCopy df src false = some c := h
  obtain ⟨a, b⟩ := C109_observations hc hu h'
  constructor
  · intro s x hx l
    obtain ⟨sh, hs⟩ := Option.isSome_iff_exists.1 (((C109_shots hc hu h').1 s).1 (by rw [hx]; rfl))
    cases hq : x.lmObs.get? l with
    | none => rfl
    | some o => exact absurd (((a s x sh hx hs).1 l o).1 hq).1 (by simp)
  · intro l y hy s
    cases hq : y.obs.get? s with
    | none => rfl
    | some o => exact absurd ((b l y hy s o).1 hq).1 (by simp)

/-- C109: adding a shot of another map brings its whole rig instance: all its shots arrive, with
their cameras, attributes and poses. -/
theorem C109_add (hc : Consistent src) {dst : FMap Id A X C K B P D M R} {s : Id}
    {sh : FShot Id A D M} {inst : FInst Id P} (hs : src.shots.get? s = some sh)
    (hi : src.rigInstances.get? sh.inst = some inst)
    (hp : ∀ t e, inst.members.get? t = some e → e.pano = false)
    (hrig : ∀ t e p q, inst.members.get? t = some e → dst.rigCameras.get? e.rigCamera = some p →
      src.rigCameras.get? e.rigCamera = some q → p = q)
    (hfree : ∀ t, (inst.members.get? t).isSome → dst.shots.get? t = none)
    (hno : dst.rigInstances.get? sh.inst = none) :
    ∃ m', addShot df src dst s sh = some m' ∧
      ∀ t y, src.shots.get? t = some y → y.inst = sh.inst →
        m'.shots.get? t = some ⟨y.camera, y.inst, y.rigCamera, y.attrs, df.mesh, [], []⟩ ∧
        (m'.cameras.get? y.camera).isSome ∧
        ∀ p, HasPose src y p → HasPose m' ⟨y.camera, y.inst, y.rigCamera, y.attrs, df.mesh, [], []⟩ p := by
  obtain ⟨m', h1, h2⟩ := addShot_spec (df := df) hc hs hi hp hrig hfree hno
  refine ⟨m', h1, fun t y ht hy => ?_⟩
  obtain ⟨x, q1, q2⟩ := hc.inst false t y ht
  rw [hy, hi] at q1
  obtain rfl := Option.some.inj q1
  have hm : (inst.members.get? t).isSome := by rw [q2]; rfl
  refine ⟨(h2.shots _ _).2 (Or.inr ⟨y, hm, hm, ht, rfl⟩), h2.camOf t y hm ht, ?_⟩
  rintro p ⟨inst', rp, e1, e2, e3⟩
  rw [hy, hi] at e1
  obtain rfl := Option.some.inj e1
  obtain ⟨x, hx, hxp, _⟩ := h2.here
  refine ⟨x, rp, hy ▸ hx, (h2.rcs _ _).2 (Or.inr ⟨e2, t, _, hm, q2, rfl⟩), ?_⟩
  rw [hxp]; exact e3

/-- C109: and nothing else changes: the shots, rig instances, rig cameras, cameras, points and pano
shots that were there stay, and only those of the rig instance are new. -/
theorem C109_add_rest (hc : Consistent src) {dst m' : FMap Id A X C K B P D M R} {s : Id}
    {sh : FShot Id A D M} {inst : FInst Id P} (hs : src.shots.get? s = some sh)
    (hi : src.rigInstances.get? sh.inst = some inst)
    (hp : ∀ t e, inst.members.get? t = some e → e.pano = false)
    (hrig : ∀ t e p q, inst.members.get? t = some e → dst.rigCameras.get? e.rigCamera = some p →
      src.rigCameras.get? e.rigCamera = some q → p = q)
    (hfree : ∀ t, (inst.members.get? t).isSome → dst.shots.get? t = none)
    (hno : dst.rigInstances.get? sh.inst = none) (h : addShot df src dst s sh = some m') :
    (∀ t x, dst.shots.get? t = some x → m'.shots.get? t = some x) ∧
    (∀ t, dst.shots.get? t = none → (inst.members.get? t).isSome = false → m'.shots.get? t = none) ∧
    (∀ j, j ≠ sh.inst → m'.rigInstances.get? j = dst.rigInstances.get? j) ∧
    (∀ rc p, dst.rigCameras.get? rc = some p → m'.rigCameras.get? rc = some p) ∧
    (∀ k v, dst.cameras.get? k = some v → m'.cameras.get? k = some v) ∧
    m'.landmarks = dst.landmarks ∧ m'.pano = dst.pano ∧ m'.reference = dst.reference := by
  obtain ⟨m'', h1, h2⟩ := addShot_spec (df := df) hc hs hi hp hrig hfree hno
  rw [h] at h1
  obtain rfl := Option.some.inj h1
  refine ⟨fun t x hx => (h2.shots t x).2 (Or.inl hx), ?_, h2.insts,
    fun rc p hrc => (h2.rcs rc p).2 (Or.inl hrc), ?_, h2.landmarks, h2.pano, h2.reference⟩
  · intro t ht hn
    cases hq : m'.shots.get? t with
    | none => rfl
    | some x =>
      rcases (h2.shots t x).1 hq with a | ⟨_, a, _⟩
      · rw [ht] at a; simp at a
      · rw [hn] at a; simp at a
  · intro k v hk
    rw [h2.cams k (by rw [hk]; rfl), hk]

/-! ### Concrete maps -/

/-- Maps with numbers for everything. -/
abbrev NMap := FMap ℕ Unit ℤ ℕ ℕ ℕ (Multiplicative ℤ) ℕ ℕ ℕ

/-- The defaults are zero. -/
def dflt : Defaults ℕ ℕ ℕ ℕ ℕ := ⟨0, 0, 0, 0, 0⟩

/-- Two shots (1 and 2) of rig instance 10 with rig cameras 20 and 21, a pano shot 3 of its own
instance 11, an unused rig camera 29, two landmarks. -/
def exMap : NMap where
  cameras := [(0, 100), (5, 105)]
  bias := [(0, 7), (5, 8)]
  rigCameras := [(20, .ofAdd 1), (21, .ofAdd 2), (22, .ofAdd 0), (29, .ofAdd 9)]
  rigInstances := [(10, ⟨.ofAdd 50, [(1, ⟨false, 20⟩), (2, ⟨false, 21⟩)]⟩),
    (11, ⟨.ofAdd 60, [(3, ⟨true, 22⟩)]⟩)]
  shots := [(1, ⟨0, 10, 20, 31, 41, [(200, ⟨4, ()⟩), (201, ⟨5, ()⟩)], [(4, 200), (5, 201)]⟩),
    (2, ⟨5, 10, 21, 32, 42, [(200, ⟨4, ()⟩)], [(4, 200)]⟩)]
  pano := [(3, ⟨0, 11, 22, 33, 43, [], []⟩)]
  landmarks := [(200, ⟨70, 80, [(1, 4), (2, 4)]⟩), (201, ⟨71, 81, [(1, 5)]⟩)]
  reference := 99

theorem all_get {V : Type} {d : Dict ℕ V} {Q : ℕ → V → Prop} (h : ∀ e ∈ d, Q e.1 e.2) :
    ∀ s v, d.get? s = some v → Q s v := fun s v hs => h (s, v) (Dict.mem_of_get? hs)

theorem exMap_consistent : Consistent exMap := by
  refine ⟨by unfold Dict.Wf; decide, by unfold Dict.Wf; decide, by unfold Dict.Wf; decide,
    by unfold Dict.Wf; decide, by unfold Dict.Wf; decide, ?_, ?_, ?_, ?_, ?_, ?_, ?_, ?_, ?_, ?_⟩
  · intro c
    rw [← Dict.mem_keys_iff, ← Dict.mem_keys_iff]
    simp [exMap, Dict.keys]
  · intro b; cases b
    · exact all_get (by decide)
    · exact all_get (by decide)
  · intro b; cases b
    · exact all_get (by decide)
    · exact all_get (by decide)
  · intro b; cases b
    · refine all_get ?_
      intro e he
      simp only [table, exMap, Bool.false_eq_true, if_false, List.mem_cons, List.not_mem_nil,
        or_false] at he
      rcases he with rfl | rfl <;> exact ⟨_, rfl, rfl⟩
    · refine all_get ?_
      intro e he
      simp only [table, exMap, if_true, List.mem_cons, List.not_mem_nil, or_false] at he
      subst he; exact ⟨_, rfl, rfl⟩
  · intro i x s e hi he
    revert s e
    revert i x
    refine all_get (Q := fun (i : ℕ) (x : FInst ℕ (Multiplicative ℤ)) => ∀ s e, x.members.get? s = some e →
      ∃ sh, (table exMap e.pano).get? s = some sh ∧ sh.inst = i ∧ sh.rigCamera = e.rigCamera) ?_
    intro q hq
    simp only [exMap, List.mem_cons, List.not_mem_nil, or_false] at hq
    rcases hq with rfl | rfl
    · refine all_get ?_
      intro e he
      simp only [List.mem_cons, List.not_mem_nil, or_false] at he
      rcases he with rfl | rfl <;> exact ⟨_, rfl, rfl, rfl⟩
    · refine all_get ?_
      intro e he
      simp only [List.mem_cons, List.not_mem_nil, or_false] at he
      subst he; exact ⟨_, rfl, rfl, rfl⟩
  · refine all_get (Q := fun _ (x : FInst ℕ (Multiplicative ℤ)) => x.members.Wf) ?_
    intro e he
    simp only [exMap, List.mem_cons, List.not_mem_nil, or_false] at he
    rcases he with rfl | rfl <;> (unfold Dict.Wf; decide)
  · intro i x s e s' e' hi hs hs' hr
    have h1 := Dict.mem_of_get? hi
    have h2 := Dict.mem_of_get? hs
    have h3 := Dict.mem_of_get? hs'
    simp only [exMap, List.mem_cons, Prod.mk.injEq, List.not_mem_nil, or_false] at h1
    rcases h1 with ⟨rfl, rfl⟩ | ⟨rfl, rfl⟩
    · simp only [List.mem_cons, Prod.mk.injEq, List.not_mem_nil, or_false] at h2 h3
      rcases h2 with ⟨rfl, rfl⟩ | ⟨rfl, rfl⟩ <;> rcases h3 with ⟨rfl, rfl⟩ | ⟨rfl, rfl⟩ <;> simp_all
    · simp only [List.mem_cons, Prod.mk.injEq, List.not_mem_nil, or_false] at h2 h3
      rw [h2.1, h3.1]
  · refine all_get (Q := fun _ (x : FShot ℕ Unit ℕ ℕ) => x.lmObs.Wf) ?_
    intro e he
    simp only [exMap, List.mem_cons, List.not_mem_nil, or_false] at he
    rcases he with rfl | rfl <;> (unfold Dict.Wf; decide)
  · intro s sh l o hs ho
    have h1 := Dict.mem_of_get? hs
    have h2 := Dict.mem_of_get? ho
    simp only [exMap, List.mem_cons, Prod.mk.injEq, List.not_mem_nil, or_false] at h1
    rcases h1 with ⟨rfl, rfl⟩ | ⟨rfl, rfl⟩
    · simp only [List.mem_cons, Prod.mk.injEq, List.not_mem_nil, or_false] at h2
      rcases h2 with ⟨rfl, rfl⟩ | ⟨rfl, rfl⟩ <;> rfl
    · simp only [List.mem_cons, Prod.mk.injEq, List.not_mem_nil, or_false] at h2
      rw [h2.1]; rfl
  · intro s sh f l hs
    have h1 := Dict.mem_of_get? hs
    simp only [exMap, List.mem_cons, Prod.mk.injEq, List.not_mem_nil, or_false] at h1
    have conv : ∀ o : Ob Unit, (∃ d, o = ⟨d, ()⟩) := fun o => ⟨o.feat, rfl⟩
    rcases h1 with ⟨rfl, rfl⟩ | ⟨rfl, rfl⟩
    · constructor
      · intro h
        have h2 := Dict.mem_of_get? h
        simp only [List.mem_cons, Prod.mk.injEq, List.not_mem_nil, or_false] at h2
        rcases h2 with ⟨rfl, rfl⟩ | ⟨rfl, rfl⟩ <;> exact ⟨_, rfl, rfl⟩
      · rintro ⟨o, ho, rfl⟩
        have h2 := Dict.mem_of_get? ho
        simp only [List.mem_cons, Prod.mk.injEq, List.not_mem_nil, or_false] at h2
        rcases h2 with ⟨rfl, rfl⟩ | ⟨rfl, rfl⟩ <;> rfl
    · constructor
      · intro h
        have h2 := Dict.mem_of_get? h
        simp only [List.mem_cons, Prod.mk.injEq, List.not_mem_nil, or_false] at h2
        obtain ⟨rfl, rfl⟩ := h2
        exact ⟨_, rfl, rfl⟩
      · rintro ⟨o, ho, rfl⟩
        have h2 := Dict.mem_of_get? ho
        simp only [List.mem_cons, Prod.mk.injEq, List.not_mem_nil, or_false] at h2
        obtain ⟨rfl, rfl⟩ := h2
        rfl

theorem exMap_unmixed : Unmixed exMap := by
  intro i x s e s' e' hi hs hs'
  have h1 := Dict.mem_of_get? hi
  have h2 := Dict.mem_of_get? hs
  have h3 := Dict.mem_of_get? hs'
  simp only [exMap, List.mem_cons, Prod.mk.injEq, List.not_mem_nil, or_false] at h1
  rcases h1 with ⟨rfl, rfl⟩ | ⟨rfl, rfl⟩
  · simp only [List.mem_cons, Prod.mk.injEq, List.not_mem_nil, or_false] at h2 h3
    rcases h2 with ⟨rfl, rfl⟩ | ⟨rfl, rfl⟩ <;> rcases h3 with ⟨rfl, rfl⟩ | ⟨rfl, rfl⟩ <;> rfl
  · simp only [List.mem_cons, Prod.mk.injEq, List.not_mem_nil, or_false] at h2 h3
    rw [h2.2, h3.2]

example : ∃ c, deepCopy dflt exMap true = some c := by
  obtain ⟨c, h, _⟩ := C109_copy exMap_consistent exMap_unmixed dflt true
  exact ⟨c, h⟩

/-- The copy, computed. -/
example : (deepCopy dflt exMap true).map (fun c => (c.shots, c.rigCameras.keys, c.landmarks)) =
    some ([(1, ⟨0, 10, 20, 31, 0, [(200, ⟨4, ()⟩), (201, ⟨5, ()⟩)], [(4, 200), (5, 201)]⟩),
      (2, ⟨5, 10, 21, 32, 0, [(200, ⟨4, ()⟩)], [(4, 200)]⟩)], [20, 21, 22],
      [(200, ⟨70, 0, [(1, 4), (2, 4)]⟩), (201, ⟨71, 0, [(1, 5)]⟩)]) := by rfl

example : (pyDeepCopy dflt [] exMap).map (fun c => (c.landmarks, c.bias, c.pano)) =
    some ([(200, ⟨70, 0, []⟩), (201, ⟨71, 0, []⟩)], [(0, 7), (5, 8)], [(3, ⟨0, 11, 22, 33, 0, [], []⟩)]) := by
  rfl

/-- Adding shot 2 of `exMap` to an empty map brings shot 1 too: the hypotheses of C109_add hold. -/
example : ∃ m', addShot dflt exMap (empty dflt) 2
    ⟨5, 10, 21, 32, 42, [(200, ⟨4, ()⟩)], [(4, 200)]⟩ = some m' ∧ (m'.shots.get? 1).isSome := by
  obtain ⟨m', h1, h2⟩ := C109_add (df := dflt) (dst := empty dflt) (s := 2)
    (inst := ⟨.ofAdd 50, [(1, ⟨false, 20⟩), (2, ⟨false, 21⟩)]⟩) exMap_consistent rfl rfl
    (all_get (by decide)) (fun t e p q _ h => by simp [empty] at h) (fun t _ => rfl) rfl
  refine ⟨m', h1, ?_⟩
  rw [(h2 1 _ rfl rfl).1]; rfl

/-- C109: a map in which one rig instance has a shot and a pano shot cannot be copied: an exception. -/
theorem C109_mixed : ∃ m : NMap, (∀ s sh, m.shots.get? s = some sh → ∃ p, HasPose m sh p) ∧
    (∀ s sh, m.pano.get? s = some sh → ∃ p, HasPose m sh p) ∧ deepCopy dflt m false = none := by
  obtain ⟨m, hm⟩ : ∃ m : NMap, m =
    { cameras := [(0, 100)], bias := [(0, 7)]
      rigCameras := [(20, .ofAdd 1), (21, .ofAdd 2)]
      rigInstances := [(10, ⟨.ofAdd 50, [(1, ⟨false, 20⟩), (2, ⟨true, 21⟩)]⟩)]
      shots := [(1, ⟨0, 10, 20, 31, 41, [], []⟩)]
      pano := [(2, ⟨0, 10, 21, 32, 42, [], []⟩)]
      landmarks := [], reference := 0 } := ⟨_, rfl⟩
  refine ⟨m, ?_, ?_, ?_⟩
  · rw [hm]; exact all_get (fun e he => by
      simp only [List.mem_cons, List.not_mem_nil, or_false] at he
      subst he; exact ⟨_, _, _, rfl, rfl, rfl⟩)
  · rw [hm]; exact all_get (fun e he => by
      simp only [List.mem_cons, List.not_mem_nil, or_false] at he
      subst he; exact ⟨_, _, _, rfl, rfl, rfl⟩)
  · rw [hm]; decide +kernel

/-- C109: when the map already has a rig camera of that name with another pose, the added shot has
its pose but its rig mate is moved. -/
theorem C109_add_moves : ∃ (src dst m' : NMap) (s t : ℕ) (sh x y : FShot ℕ Unit ℕ ℕ),
    Consistent src ∧ src.shots.get? s = some sh ∧ addShot dflt src dst s sh = some m' ∧
    src.shots.get? t = some x ∧ m'.shots.get? t = some y ∧ (∃ p, HasPose src sh p ∧ HasPose m' sh p) ∧
    (∃ p, HasPose src x p) ∧ ∀ p, HasPose src x p → ¬ HasPose m' y p := by
  obtain ⟨dst, hdst⟩ : ∃ dst : NMap, dst =
    { empty dflt with rigCameras := [(21, .ofAdd 3)] } := ⟨_, rfl⟩
  obtain ⟨m', hm'⟩ : ∃ m', addShot dflt exMap dst 2
      ⟨5, 10, 21, 32, 42, [(200, ⟨4, ()⟩)], [(4, 200)]⟩ = some m' ∧
      m'.rigCameras.get? 20 = some (.ofAdd 1) ∧ m'.rigCameras.get? 21 = some (.ofAdd 3) ∧
      (m'.rigInstances.get? 10).map (·.pose) = some (.ofAdd 49) ∧
      m'.shots.get? 1 = some ⟨0, 10, 20, 31, 0, [], []⟩ := by
    have : ((addShot dflt exMap dst 2 ⟨5, 10, 21, 32, 42, [(200, ⟨4, ()⟩)], [(4, 200)]⟩).map fun m' =>
        (m'.rigCameras.get? 20, m'.rigCameras.get? 21, (m'.rigInstances.get? 10).map (·.pose),
          m'.shots.get? 1)) = some (some (.ofAdd 1), some (.ofAdd 3), some (.ofAdd 49),
          some ⟨0, 10, 20, 31, 0, [], []⟩) := by rw [hdst]; rfl
    obtain ⟨m', h1, h2⟩ := Option.map_eq_some_iff.1 this
    simp only [Prod.mk.injEq] at h2
    exact ⟨m', h1, h2.1, h2.2.1, h2.2.2.1, h2.2.2.2⟩
  obtain ⟨h1, h2, h3, h4, h5⟩ := hm'
  obtain ⟨i10, hi10, hp10⟩ := Option.map_eq_some_iff.1 h4
  refine ⟨exMap, dst, m', 2, 1, _, _, _, exMap_consistent, rfl, h1, rfl, h5, ?_, ?_, ?_⟩
  · refine ⟨.ofAdd 52, ⟨_, _, rfl, rfl, rfl⟩, ⟨i10, .ofAdd 3, hi10, h3, ?_⟩⟩
    rw [hp10]; rfl
  · exact ⟨_, _, _, rfl, rfl, rfl⟩
  · rintro p ⟨i, rp, e1, e2, rfl⟩ ⟨i', rp', e3, e4, e5⟩
    have e1' : some (⟨.ofAdd 50, [(1, ⟨false, 20⟩), (2, ⟨false, 21⟩)]⟩ : FInst ℕ (Multiplicative ℤ)) =
      some i := e1
    have e2' : some (Multiplicative.ofAdd (1 : ℤ)) = some rp := e2
    obtain rfl := Option.some.inj e1'
    obtain rfl := Option.some.inj e2'
    rw [hi10] at e3
    obtain rfl := Option.some.inj e3
    rw [h2] at e4
    obtain rfl := Option.some.inj e4
    rw [hp10] at e5
    revert e5; decide

end Verif.MapCopy
