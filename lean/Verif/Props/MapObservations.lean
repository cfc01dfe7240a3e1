import Verif.Lemmas.MapCopy
import Verif.Lemmas.TracksManager

/-! # C110: observations of a map and of a tracks manager -/
namespace Verif.MapCopy
set_option linter.unusedSectionVars false
set_option linter.unusedSimpArgs false

variable {Id A X C K B P D M R : Type} [DecidableEq Id]

theorem look2_trackShot (tm : TM Id Id (Ob A)) (s0 : Id) (d : Dict Id (Ob A)) (hd : d.Wf) (s l : Id) :
    TM.look2 (d.foldl (fun acc q => acc.addObservation s0 q.1 q.2) tm).perShot s l =
      if s0 = s then (d.get? l).or (TM.look2 tm.perShot s l) else TM.look2 tm.perShot s l := by
  induction d generalizing tm with
  | nil => simp
  | cons a d ih =>
    obtain ⟨k, v⟩ := a
    have hd' : Dict.Wf d := (List.nodup_cons.1 hd).2
    have hkn : Dict.get? d k = none := (Dict.get?_eq_none_iff _ _).2 (List.nodup_cons.1 hd).1
    rw [List.foldl_cons, ih _ hd', TM.look2_add]
    by_cases e : s0 = s
    · subst e
      by_cases e2 : k = l
      · subst e2; simp [Dict.get?, hkn]
      · have e3 : ¬ l = k := fun q => e2 q.symm
        simp [Dict.get?, e2, e3]
    · have e' : ¬ s = s0 := fun q => e q.symm
      simp [e, e']

theorem look2_trackShots (L : Dict Id (FShot Id A D M)) (hL : L.Wf)
    (hw : ∀ s sh, L.get? s = some sh → sh.lmObs.Wf) (tm : TM Id Id (Ob A)) (s l : Id) :
    TM.look2 (L.foldl trackShot tm).perShot s l =
      ((L.get? s).bind (·.lmObs.get? l)).or (TM.look2 tm.perShot s l) := by
  induction L generalizing tm with
  | nil => simp
  | cons a L ih =>
    obtain ⟨k, v⟩ := a
    have hL' : Dict.Wf L := (List.nodup_cons.1 hL).2
    have hkn : Dict.get? L k = none := (Dict.get?_eq_none_iff _ _).2 (List.nodup_cons.1 hL).1
    have hv : v.lmObs.Wf := hw k v (by simp [Dict.get?])
    rw [List.foldl_cons, ih hL' (fun s sh hs => hw s sh (by
      have : ¬ k = s := by
        rintro rfl; rw [hkn] at hs; simp at hs
      simp [Dict.get?, this, hs]))]
    unfold trackShot
    rw [look2_trackShot _ _ _ hv]
    by_cases e : k = s
    · subst e; simp [Dict.get?, hkn]
    · simp [Dict.get?, e]

/-- C110: `to_tracks_manager` has exactly the observations of the shots and of the pano shots (a pano
shot and a shot of the same name are mixed: the observation of the pano shot wins). -/
theorem C110_tracks (m : FMap Id A X C K B P D M R) (h1 : m.shots.Wf) (h2 : m.pano.Wf)
    (h3 : ∀ s sh, m.shots.get? s = some sh → sh.lmObs.Wf)
    (h4 : ∀ s sh, m.pano.get? s = some sh → sh.lmObs.Wf) (s l : Id) (o : Ob A) :
    (toTracksManager m).getObservation s l = .ok o ↔
      (∃ sh, m.pano.get? s = some sh ∧ sh.lmObs.get? l = some o) ∨
      ((∀ sh, m.pano.get? s = some sh → sh.lmObs.get? l = none) ∧
        ∃ sh, m.shots.get? s = some sh ∧ sh.lmObs.get? l = some o) := by
  rw [TM.getObservation_ok_iff]
  unfold toTracksManager
  rw [look2_trackShots _ h2 h4, look2_trackShots _ h1 h3]
  have : TM.look2 (TM.empty : TM Id Id (Ob A)).perShot s l = none := rfl
  rw [this]
  rcases hp : m.pano.get? s with _ | shp
  · rcases hs : m.shots.get? s with _ | sh <;> simp
  · rcases hq : shp.lmObs.get? l with _ | o'
    · rcases hs : m.shots.get? s with _ | sh <;> simp [hq]
    · simp [hq]

theorem get?_validOf (m : FMap Id A X C K B P D M R) (d : Dict Id (Ob A)) (hd : d.Wf) (l : Id) :
    (validOf m d).get? l = if m.landmarks.has l then d.get? l else none := by
  unfold validOf
  suffices H : ∀ (d : Dict Id (Ob A)) (_ : d.Wf) (acc : Dict Id (Ob A)),
      (d.foldl (fun acc q => if m.landmarks.has q.1 then acc.set q.1 q.2 else acc) acc).get? l =
        if m.landmarks.has l then (d.get? l).or (acc.get? l) else acc.get? l by
    rw [H d hd]; simp
  intro d
  induction d with
  | nil => intro _ acc; simp
  | cons a d ih =>
    intro hd acc
    obtain ⟨k, v⟩ := a
    have hd' : Dict.Wf d := (List.nodup_cons.1 hd).2
    have hkn : Dict.get? d k = none := (Dict.get?_eq_none_iff _ _).2 (List.nodup_cons.1 hd).1
    rw [List.foldl_cons, ih hd']
    by_cases e : k = l
    · subst e
      by_cases hh : m.landmarks.has k = true <;> simp [Dict.get?, hkn, hh]
    · by_cases hh : m.landmarks.has k = true <;> simp [Dict.get?, e, hh, Dict.get?_set]

/-- A loop `for k, v in d: if cond: acc[k] = g(k, v)`. -/
theorem get?_foldl_cond {V W : Type} (d : Dict Id V) (hd : d.Wf) (g : Id → V → Option W)
    (f : Dict Id W → Id × V → Dict Id W) (h0 : ∀ acc e, g e.1 e.2 = none → f acc e = acc)
    (h1 : ∀ acc e w, g e.1 e.2 = some w → f acc e = acc.set e.1 w) (s : Id) :
    (d.foldl f []).get? s = (d.get? s).bind (g s) := by
  suffices H : ∀ (d : Dict Id V) (_ : d.Wf) (acc : Dict Id W),
      (d.foldl f acc).get? s = ((d.get? s).bind (g s)).or (acc.get? s) by
    rw [H d hd]; simp
  intro d
  induction d with
  | nil => intro _ acc; simp
  | cons a d ih =>
    intro hd acc
    obtain ⟨k, v⟩ := a
    have hd' : Dict.Wf d := (List.nodup_cons.1 hd).2
    have hkn : Dict.get? d k = none := (Dict.get?_eq_none_iff _ _).2 (List.nodup_cons.1 hd).1
    rw [List.foldl_cons, ih hd']
    by_cases e : k = s
    · subst e
      cases hg : g k v with
      | none => rw [h0 acc (k, v) hg]; simp [Dict.get?, hkn, hg]
      | some w => rw [h1 acc (k, v) w hg]; simp [Dict.get?, hkn, hg]
    · cases hg : g k v with
      | none => rw [h0 acc (k, v) hg]; simp [Dict.get?, e]
      | some w => rw [h1 acc (k, v) w hg]; simp [Dict.get?, e, Dict.get?_set]

theorem get?_validObservations (m : FMap Id A X C K B P D M R) (tm : TM Id Id (Ob A))
    (h : tm.perShot.Wf) (s : Id) : (validObservations m tm).get? s =
      if m.shots.has s then (tm.perShot.get? s).map (validOf m) else none := by
  unfold validObservations
  rw [get?_foldl_cond tm.perShot h
    (fun k v => if m.shots.has k then some (validOf m v) else none) _
    (fun acc e he => by
      by_cases hh : m.shots.has e.1 = true
      · simp [hh] at he
      · simp [hh])
    (fun acc e w he => by
      by_cases hh : m.shots.has e.1 = true
      · simp only [hh, if_true, Option.some.injEq] at he
        simp [hh, he]
      · simp [hh] at he)]
  cases hg : tm.perShot.get? s <;> by_cases hh : m.shots.has s = true <;> simp [hh]

/-- C110: `get_valid_observations` gives, for the shots of the tracks manager that are in the map,
exactly their observations of tracks that are landmarks of the map. -/
theorem C110_valid (m : FMap Id A X C K B P D M R) (tm : TM Id Id (Ob A)) (h : TM.Reachable tm) :
    (∀ s, ((validObservations m tm).get? s).isSome ↔
      (m.shots.get? s).isSome ∧ s ∈ tm.getShotIds) ∧
    ∀ s d, (validObservations m tm).get? s = some d → ∀ l o, d.get? l = some o ↔
      tm.getObservation s l = .ok o ∧ (m.landmarks.get? l).isSome := by
  have hi := TM.inv_of_reachable h
  have hw := hi.wfS
  have key := get?_validObservations m tm hw.1
  constructor
  · intro s
    rw [key]
    unfold TM.getShotIds
    rw [Dict.mem_keys_iff]
    unfold Dict.has
    by_cases hh : (m.shots.get? s).isSome = true <;> simp [hh]
  · intro s d hd l o
    rw [key] at hd
    rw [TM.getObservation_ok_iff]
    by_cases hh : m.shots.has s = true
    · rw [if_pos hh] at hd
      obtain ⟨d', hd', rfl⟩ := Option.map_eq_some_iff.1 hd
      rw [get?_validOf m d' (hw.2 s d' hd')]
      unfold TM.look2 Dict.has
      rw [hd']
      by_cases hl : (m.landmarks.get? l).isSome = true <;> simp [hl]
    · rw [if_neg hh] at hd; simp at hd

/-- C110: `compute_reprojection_errors` gives an error for exactly the valid observations, whatever
the kind of error: that of the shot, the landmark and the observation. -/
theorem C110_errors {E : Type} (err : FShot Id A D M → FLm Id X C → Ob A → E)
    (m : FMap Id A X C K B P D M R) (tm : TM Id Id (Ob A)) (h : TM.Reachable tm) :
    (∀ s, ((reprojectionErrors err m tm).get? s).isSome ↔
      ((validObservations m tm).get? s).isSome) ∧
    ∀ s d, (reprojectionErrors err m tm).get? s = some d → ∀ l x, d.get? l = some x ↔
      ∃ sh lm o, m.shots.get? s = some sh ∧ m.landmarks.get? l = some lm ∧
        tm.getObservation s l = .ok o ∧ x = err sh lm o := by
  have hi := TM.inv_of_reachable h
  have hw := hi.wfS
  have key : ∀ s, (reprojectionErrors err m tm).get? s =
      (tm.perShot.get? s).bind fun d => (m.shots.get? s).map fun sh => errorsOf err m sh d := by
    intro s
    unfold reprojectionErrors
    exact get?_foldl_cond tm.perShot hw.1
      (fun k v => (m.shots.get? k).map fun sh => errorsOf err m sh v) _
      (fun acc e he => by
        have hh : m.shots.get? e.1 = none := by simpa using he
        simp [hh])
      (fun acc e w he => by
        obtain ⟨sh, hh, rfl⟩ := Option.map_eq_some_iff.1 he
        simp [hh]) s
  constructor
  · intro s
    rw [key, get?_validObservations m tm hw.1]
    unfold Dict.has
    cases hg : tm.perShot.get? s <;> cases hh : m.shots.get? s <;> simp
  · intro s d hd l x
    rw [key] at hd
    obtain ⟨d', hd', h2⟩ := Option.bind_eq_some_iff.1 hd
    obtain ⟨sh, hsh, rfl⟩ := Option.map_eq_some_iff.1 h2
    have k2 : (errorsOf err m sh d').get? l =
        (d'.get? l).bind fun o => (m.landmarks.get? l).map fun lm => err sh lm o := by
      unfold errorsOf
      exact get?_foldl_cond d' (hw.2 s d' hd')
        (fun k v => (m.landmarks.get? k).map fun lm => err sh lm v) _
        (fun acc e he => by
          have hh : m.landmarks.get? e.1 = none := by simpa using he
          simp [hh])
        (fun acc e w he => by
          obtain ⟨lm, hh, rfl⟩ := Option.map_eq_some_iff.1 he
          simp [hh]) l
    rw [k2]
    simp only [TM.getObservation_ok_iff, TM.look2, hd', hsh, Option.bind_some]
    constructor
    · intro hx
      obtain ⟨o, ho, h3⟩ := Option.bind_eq_some_iff.1 hx
      obtain ⟨lm, hlm, rfl⟩ := Option.map_eq_some_iff.1 h3
      exact ⟨sh, lm, o, rfl, hlm, ho, rfl⟩
    · rintro ⟨sh', lm, o, h3, h4, h5, rfl⟩
      rw [h5, h4, Option.some.inj h3]; rfl

/-- The correspondences in `Done` have been added to `m`. -/
structure CorInv (tm : TM Id Id (Ob A)) (m : FMap Id A X C K B P D M R) (Done : Id → Id → Prop)
    (m' : FMap Id A X C K B P D M R) : Prop where
  rest : m'.cameras = m.cameras ∧ m'.bias = m.bias ∧ m'.rigCameras = m.rigCameras ∧
    m'.rigInstances = m.rigInstances ∧ m'.pano = m.pano ∧ m'.reference = m.reference
  noShot : ∀ s, m.shots.get? s = none → m'.shots.get? s = none
  noLm : ∀ l, m.landmarks.get? l = none → m'.landmarks.get? l = none
  shots : ∀ s x, m.shots.get? s = some x → ∃ t d, m'.shots.get? s = some { x with lmObs := t, lmId := d } ∧
    ∀ l o, t.get? l = some o ↔ x.lmObs.get? l = some o ∨
      (x.lmObs.get? l = none ∧ Done s l ∧ tm.getObservation s l = .ok o)
  lms : ∀ l y, m.landmarks.get? l = some y → ∃ t, m'.landmarks.get? l = some { y with obs := t } ∧
    ∀ s f, t.get? s = some f ↔ y.obs.get? s = some f ∨
      (y.obs.get? s = none ∧ Done s l ∧ ∃ o, tm.getObservation s l = .ok o ∧ o.feat = f)

theorem CorInv.congr {tm : TM Id Id (Ob A)} {m m' : FMap Id A X C K B P D M R}
    {D1 D2 : Id → Id → Prop} (h : CorInv tm m D1 m') (e : ∀ s l, D1 s l ↔ D2 s l) :
    CorInv tm m D2 m' := by
  have : D1 = D2 := funext fun i => funext fun j => propext (e i j)
  exact this ▸ h

theorem corStep {tm : TM Id Id (Ob A)} {m m' : FMap Id A X C K B P D M R} {Done : Id → Id → Prop}
    (h : CorInv tm m Done m') {s l : Id} {o : Ob A} {x : FShot Id A D M} {y : FLm Id X C}
    (hx : m.shots.get? s = some x) (hy : m.landmarks.get? l = some y)
    (ho : tm.getObservation s l = .ok o) :
    ∃ m'', addObservation m' s l o = some m'' ∧
      CorInv tm m (fun a b => Done a b ∨ (a = s ∧ b = l)) m'' := by
  obtain ⟨t, d, h1, h2⟩ := h.shots s x hx
  obtain ⟨u, h3, h4⟩ := h.lms l y hy
  unfold addObservation
  simp only [h1, h3]
  refine ⟨_, rfl, ⟨h.rest, ?_, ?_, ?_, ?_⟩⟩
  · intro s' hs'
    have : s ≠ s' := by rintro rfl; rw [hx] at hs'; simp at hs'
    show (m'.shots.set s _).get? s' = none
    rw [Dict.get?_set_ne _ _ this]; exact h.noShot s' hs'
  · intro l' hl'
    have : l ≠ l' := by rintro rfl; rw [hy] at hl'; simp at hl'
    show (m'.landmarks.set l _).get? l' = none
    rw [Dict.get?_set_ne _ _ this]; exact h.noLm l' hl'
  · intro s' x' hx'
    by_cases e : s = s'
    · subst e
      rw [hx] at hx'
      obtain rfl := Option.some.inj hx'
      refine ⟨t.insertNew l o, d.insertNew o.feat l, Dict.get?_set_self _ _ _, ?_⟩
      intro l' o'
      rw [Dict.get?_insertNew]
      by_cases e2 : l = l'
      · subst e2
        rw [if_pos rfl]
        by_cases hh : t.has l = true
        · rw [if_pos hh, h2]
          obtain ⟨v, hv⟩ := (has_iff _ _).1 hh
          constructor
          · rintro (a | ⟨a, b, c⟩)
            · exact Or.inl a
            · exact Or.inr ⟨a, Or.inl b, c⟩
          · rintro (a | ⟨a, b, c⟩)
            · exact Or.inl a
            · rcases (h2 l v).1 hv with q | q
              · rw [a] at q; simp at q
              · exact Or.inr ⟨a, q.2.1, c⟩
        · rw [if_neg hh]
          have hn : t.get? l = none := by simpa [Dict.has] using hh
          have hxn : x.lmObs.get? l = none := by
            cases hq : x.lmObs.get? l with
            | none => rfl
            | some v => rw [(h2 l v).2 (Or.inl hq)] at hn; simp at hn
          rw [hxn, ho]; simp
      · rw [if_neg e2, h2]
        have e3 : ¬ l' = l := fun q => e2 q.symm
        simp [e3]
    · have e' : ¬ s' = s := fun q => e q.symm
      obtain ⟨t', d', q1, q2⟩ := h.shots s' x' hx'
      refine ⟨t', d', ?_, ?_⟩
      · show (m'.shots.set s _).get? s' = _
        rw [Dict.get?_set_ne _ _ e]; exact q1
      · intro l' o'; rw [q2]; simp [e']
  · intro l' y' hy'
    by_cases e : l = l'
    · subst e
      rw [hy] at hy'
      obtain rfl := Option.some.inj hy'
      refine ⟨u.insertNew s o.feat, Dict.get?_set_self _ _ _, ?_⟩
      intro s' f
      rw [Dict.get?_insertNew]
      by_cases e2 : s = s'
      · subst e2
        rw [if_pos rfl]
        by_cases hh : u.has s = true
        · rw [if_pos hh, h4]
          obtain ⟨v, hv⟩ := (has_iff _ _).1 hh
          constructor
          · rintro (a | ⟨a, b, c⟩)
            · exact Or.inl a
            · exact Or.inr ⟨a, Or.inl b, c⟩
          · rintro (a | ⟨a, b, c⟩)
            · exact Or.inl a
            · rcases (h4 s v).1 hv with q | q
              · rw [a] at q; simp at q
              · exact Or.inr ⟨a, q.2.1, c⟩
        · rw [if_neg hh]
          have hn : u.get? s = none := by simpa [Dict.has] using hh
          have hxn : y.obs.get? s = none := by
            cases hq : y.obs.get? s with
            | none => rfl
            | some v => rw [(h4 s v).2 (Or.inl hq)] at hn; simp at hn
          rw [hxn, ho]; simp
      · rw [if_neg e2, h4]
        have e3 : ¬ s' = s := fun q => e2 q.symm
        simp [e3]
    · have e' : ¬ l' = l := fun q => e q.symm
      obtain ⟨t', q1, q2⟩ := h.lms l' y' hy'
      refine ⟨t', ?_, ?_⟩
      · show (m'.landmarks.set l _).get? l' = _
        rw [Dict.get?_set_ne _ _ e]; exact q1
      · intro s' f; rw [q2]; simp [e']

/-- The whole loop. -/
theorem addCorrespondences_spec (m : FMap Id A X C K B P D M R) (tm : TM Id Id (Ob A))
    (h : TM.Reachable tm) : ∃ m', addCorrespondences tm m = some m' ∧
      CorInv tm m (fun s l => (m.shots.get? s).isSome ∧ (m.landmarks.get? l).isSome) m' := by
  have hi := TM.inv_of_reachable h
  have base : CorInv tm m (fun _ _ => False) m := by
    refine ⟨⟨rfl, rfl, rfl, rfl, rfl, rfl⟩, fun _ h => h, fun _ h => h, ?_, ?_⟩
    · intro s x hx; exact ⟨x.lmObs, x.lmId, hx, fun l o => by simp⟩
    · intro l y hy; exact ⟨y.obs, hy, fun s f => by simp⟩
  have same : ∀ {Done m'}, CorInv tm m Done m' →
      (∀ s, m'.shots.has s = (m.shots.get? s).isSome) ∧
      ∀ l, m'.landmarks.has l = (m.landmarks.get? l).isSome := by
    intro Done m' hm
    constructor
    · intro s
      unfold Dict.has
      cases hq : m.shots.get? s with
      | none => rw [hm.noShot s hq]
      | some x => obtain ⟨t, d, q, _⟩ := hm.shots s x hq; rw [q]; rfl
    · intro l
      unfold Dict.has
      cases hq : m.landmarks.get? l with
      | none => rw [hm.noLm l hq]
      | some x => obtain ⟨t, q, _⟩ := hm.lms l x hq; rw [q]; rfl
  have loop : ∃ m', tm.perTrack.foldlM (addTrack tm) m = some m' ∧
      CorInv tm m (fun s l => ((m.shots.get? s).isSome ∧ (m.landmarks.get? l).isSome) ∧
        ∃ d, (l, d) ∈ tm.perTrack ∧ s ∈ Dict.keys d) m' := by
    refine foldlM_inv (addTrack tm) tm.perTrack (fun pre m' => CorInv tm m (fun s l =>
      ((m.shots.get? s).isSome ∧ (m.landmarks.get? l).isSome) ∧ ∃ d, (l, d) ∈ pre ∧ s ∈ Dict.keys d)
      m') ?_ m (base.congr fun s l => by simp)
    rintro pre ⟨l, d⟩ post b hl q
    have hd : tm.perTrack.get? l = some d := Dict.get?_of_mem hi.wfT.1 (by rw [hl]; simp)
    unfold addTrack
    by_cases hlm : b.landmarks.has l = true
    · simp only [hlm, if_true]
      rw [(same q).2] at hlm
      obtain ⟨y, hy⟩ := Option.isSome_iff_exists.1 hlm
      have inner : ∃ m', (Dict.keys d).foldlM (addCorrespondence tm l) b = some m' ∧
          CorInv tm m (fun s l' => (((m.shots.get? s).isSome ∧ (m.landmarks.get? l').isSome) ∧
            ∃ d, (l', d) ∈ pre ∧ s ∈ Dict.keys d) ∨
            ((m.shots.get? s).isSome ∧ l' = l ∧ s ∈ Dict.keys d)) m' := by
        refine foldlM_inv (addCorrespondence tm l) (Dict.keys d) (fun pre2 m' =>
          CorInv tm m (fun s l' => (((m.shots.get? s).isSome ∧ (m.landmarks.get? l').isSome) ∧
            ∃ d, (l', d) ∈ pre ∧ s ∈ Dict.keys d) ∨
            ((m.shots.get? s).isSome ∧ l' = l ∧ s ∈ pre2)) m') ?_ b (q.congr fun s l => by simp)
        intro pre2 s post2 b2 hl2 q2
        have hsd : s ∈ Dict.keys d := by rw [hl2]; simp
        obtain ⟨o, hso⟩ := Option.isSome_iff_exists.1 ((Dict.mem_keys_iff _ _).1 hsd)
        have hob : tm.getObservation s l = .ok o := by
          rw [TM.getObservation_ok_iff, hi.sym]
          unfold TM.look2; rw [hd]; exact hso
        unfold addCorrespondence
        by_cases hs : b2.shots.has s = true
        · simp only [hs, if_true, hob]
          rw [(same q2).1] at hs
          obtain ⟨x, hx⟩ := Option.isSome_iff_exists.1 hs
          obtain ⟨m'', e1, e2⟩ := corStep q2 hx hy hob
          refine ⟨m'', e1, e2.congr fun a c => ?_⟩
          constructor
          · rintro ((z | ⟨z1, z2, z3⟩) | ⟨rfl, rfl⟩)
            · exact Or.inl z
            · exact Or.inr ⟨z1, z2, by simp [z3]⟩
            · exact Or.inr ⟨hs, rfl, by simp⟩
          · rintro (z | ⟨z1, z2, z3⟩)
            · exact Or.inl (Or.inl z)
            · rcases List.mem_append.1 z3 with z3 | z3
              · exact Or.inl (Or.inr ⟨z1, z2, z3⟩)
              · exact Or.inr ⟨List.mem_singleton.1 z3, z2⟩
        · simp only [hs, Bool.false_eq_true, if_false]
          refine ⟨b2, rfl, q2.congr fun a c => ?_⟩
          rw [(same q2).1] at hs
          constructor
          · rintro (z | ⟨z1, z2, z3⟩)
            · exact Or.inl z
            · exact Or.inr ⟨z1, z2, by simp [z3]⟩
          · rintro (z | ⟨z1, z2, z3⟩)
            · exact Or.inl z
            · rcases List.mem_append.1 z3 with z3 | z3
              · exact Or.inr ⟨z1, z2, z3⟩
              · rw [List.mem_singleton.1 z3] at z1
                exact absurd z1 hs
      obtain ⟨m', e1, e2⟩ := inner
      refine ⟨m', e1, e2.congr fun a c => ?_⟩
      constructor
      · rintro (⟨z1, d', z2, z3⟩ | ⟨z1, rfl, z3⟩)
        · exact ⟨z1, d', by simp [z2], z3⟩
        · exact ⟨⟨z1, hlm⟩, d, by simp, z3⟩
      · rintro ⟨z1, d', z2, z3⟩
        rcases List.mem_append.1 z2 with z2 | z2
        · exact Or.inl ⟨z1, d', z2, z3⟩
        · simp only [List.mem_singleton, Prod.mk.injEq] at z2
          exact Or.inr ⟨z1.1, z2.1, z2.2 ▸ z3⟩
    · simp only [hlm, Bool.false_eq_true, if_false]
      rw [(same q).2] at hlm
      refine ⟨b, rfl, q.congr fun a c => ?_⟩
      constructor
      · rintro ⟨z1, d', z2, z3⟩
        exact ⟨z1, d', by simp [z2], z3⟩
      · rintro ⟨z1, d', z2, z3⟩
        rcases List.mem_append.1 z2 with z2 | z2
        · exact ⟨z1, d', z2, z3⟩
        · simp only [List.mem_singleton, Prod.mk.injEq] at z2
          rw [z2.1] at z1
          exact absurd z1.2 hlm
  obtain ⟨m', h1, h2⟩ := loop
  have vis : ∀ s l o, tm.getObservation s l = .ok o → ∃ d, (l, d) ∈ tm.perTrack ∧ s ∈ Dict.keys d := by
    intro s l o ho
    rw [TM.getObservation_ok_iff, hi.sym] at ho
    unfold TM.look2 at ho
    obtain ⟨d, hd, hs⟩ := Option.bind_eq_some_iff.1 ho
    exact ⟨d, Dict.mem_of_get? hd, (Dict.mem_keys_iff _ _).2 (by rw [hs]; rfl)⟩
  refine ⟨m', h1, ⟨h2.rest, h2.noShot, h2.noLm, ?_, ?_⟩⟩
  · intro s x hx
    obtain ⟨t, d, q1, q2⟩ := h2.shots s x hx
    refine ⟨t, d, q1, fun l o => (q2 l o).trans ?_⟩
    constructor
    · rintro (a | ⟨a, b, c⟩)
      · exact Or.inl a
      · exact Or.inr ⟨a, b.1, c⟩
    · rintro (a | ⟨a, b, c⟩)
      · exact Or.inl a
      · exact Or.inr ⟨a, ⟨b, vis s l o c⟩, c⟩
  · intro l y hy
    obtain ⟨t, q1, q2⟩ := h2.lms l y hy
    refine ⟨t, q1, fun s f => (q2 s f).trans ?_⟩
    constructor
    · rintro (a | ⟨a, b, c⟩)
      · exact Or.inl a
      · exact Or.inr ⟨a, b.1, c⟩
    · rintro (a | ⟨a, b, o, c, e⟩)
      · exact Or.inl a
      · exact Or.inr ⟨a, ⟨b, vis s l o c⟩, o, c, e⟩

/-- C110: `add_correspondences_from_tracks_manager` never fails; afterwards a shot of the map has,
besides the observations it had, exactly those of the tracks manager of tracks that are points of the
map; an observation that was there is not replaced. -/
theorem C110_correspondences (m : FMap Id A X C K B P D M R) (tm : TM Id Id (Ob A))
    (h : TM.Reachable tm) : ∃ m', addCorrespondences tm m = some m' ∧
    (∀ s, (m'.shots.get? s).isSome ↔ (m.shots.get? s).isSome) ∧
    ∀ s x x', m.shots.get? s = some x → m'.shots.get? s = some x' →
      x'.camera = x.camera ∧ x'.inst = x.inst ∧ x'.rigCamera = x.rigCamera ∧ x'.attrs = x.attrs ∧
      ∀ l o, x'.lmObs.get? l = some o ↔ x.lmObs.get? l = some o ∨
        (x.lmObs.get? l = none ∧ (m.landmarks.get? l).isSome ∧ tm.getObservation s l = .ok o) := by
  obtain ⟨m', h1, h2⟩ := addCorrespondences_spec m tm h
  refine ⟨m', h1, ?_, ?_⟩
  · intro s
    cases hq : m.shots.get? s with
    | none => rw [h2.noShot s hq]
    | some x => obtain ⟨t, d, q, _⟩ := h2.shots s x hq; rw [q]; simp
  · intro s x x' hx hx'
    obtain ⟨t, d, q, q2⟩ := h2.shots s x hx
    rw [q] at hx'
    obtain rfl := Option.some.inj hx'
    refine ⟨rfl, rfl, rfl, rfl, fun l o => (q2 l o).trans ?_⟩
    simp [hx]

/-- C110: and the points know exactly the shots that observe them; their positions and colours stay. -/
theorem C110_correspondences_points (m m' : FMap Id A X C K B P D M R) (tm : TM Id Id (Ob A))
    (h : TM.Reachable tm) (hm : addCorrespondences tm m = some m') :
    (∀ l, (m'.landmarks.get? l).isSome ↔ (m.landmarks.get? l).isSome) ∧
    ∀ l y y', m.landmarks.get? l = some y → m'.landmarks.get? l = some y' →
      y'.pos = y.pos ∧ y'.color = y.color ∧
      ∀ s f, y'.obs.get? s = some f ↔ y.obs.get? s = some f ∨
        (y.obs.get? s = none ∧ (m.shots.get? s).isSome ∧
          ∃ o, tm.getObservation s l = .ok o ∧ o.feat = f) := by
  obtain ⟨m'', h1, h2⟩ := addCorrespondences_spec m tm h
  rw [hm] at h1
  obtain rfl := Option.some.inj h1
  constructor
  · intro l
    cases hq : m.landmarks.get? l with
    | none => rw [h2.noLm l hq]
    | some x => obtain ⟨t, q, _⟩ := h2.lms l x hq; rw [q]; simp
  · intro l y y' hy hy'
    obtain ⟨t, q, q2⟩ := h2.lms l y hy
    rw [q] at hy'
    obtain rfl := Option.some.inj hy'
    refine ⟨rfl, rfl, fun s f => (q2 s f).trans ?_⟩
    simp [hy]

/-- A map with two shots and a landmark, and tracks of three shots. -/
def exObsMap : FMap ℕ ℕ ℕ ℕ ℕ ℕ ℕ ℕ ℕ ℕ :=
  ⟨[], [], [], [], [(1, ⟨0, 0, 0, 0, 0, [], []⟩), (2, ⟨0, 0, 0, 0, 0, [(7, ⟨9, 90⟩)], [(9, 7)]⟩)], [],
    [(7, ⟨70, 0, [(2, 9)]⟩)], 0⟩

/-- Their tracks manager. -/
def exObsTm : TM ℕ ℕ (Ob ℕ) :=
  TM.run [.add 1 7 ⟨3, 30⟩, .add 2 7 ⟨4, 40⟩, .add 3 7 ⟨5, 50⟩, .add 1 8 ⟨6, 60⟩]

example : TM.Reachable exObsTm := ⟨_, rfl⟩
example : (addCorrespondences exObsTm exObsMap).map (fun m => (m.shots.map fun e => (e.1, e.2.lmObs),
    m.landmarks.map fun e => e.2.obs)) =
  some ([(1, [(7, ⟨3, 30⟩)]), (2, [(7, ⟨9, 90⟩)])], [[(2, 9), (1, 3)]]) := by rfl
example : validObservations exObsMap exObsTm = [(1, [(7, ⟨3, 30⟩)]), (2, [(7, ⟨4, 40⟩)])] := by rfl
example : (toTracksManager exObsMap).getObservation 2 7 = .ok ⟨9, 90⟩ := by rfl

section Kinds
variable {V : Type} [NormedAddCommGroup V] [InnerProductSpace ℝ V]

/-- C110: the pixel error vanishes exactly when the landmark is seen where it was observed; so does
the normalised one, which is the pixel error in units of the scale of the feature. -/
theorem C110_pixel (p q : ℝ × ℝ) (scale : ℝ) (hs : scale ≠ 0) (x c b : V) :
    (errorOf .pixel p q scale x c b = 0 ↔ p = q) ∧
    (errorOf .normalized p q scale x c b = 0 ↔ p = q) ∧
    scale • errorOf .normalized p q scale x c b = errorOf .pixel p q scale x c b := by
  refine ⟨sub_eq_zero, ?_, ?_⟩
  · show scale⁻¹ • (p - q) = 0 ↔ _
    rw [smul_eq_zero, sub_eq_zero]
    simp [hs]
  · show scale • scale⁻¹ • (p - q) = p - q
    rw [smul_smul, mul_inv_cancel₀ hs, one_smul]

/-- C110: both parts of the angular error are the angle between the direction from the shot to the
landmark and the bearing of the observation; it is at most a half turn and vanishes exactly when the
landmark lies on the ray of the observation. -/
theorem C110_angular (p q : ℝ × ℝ) (scale : ℝ) (x c b : V) (hx : x ≠ c) (hb : b ≠ 0) :
    errorOf .angular p q scale x c b =
      (InnerProductGeometry.angle (x - c) b, InnerProductGeometry.angle (x - c) b) ∧
    0 ≤ (errorOf .angular p q scale x c b).1 ∧ (errorOf .angular p q scale x c b).1 ≤ Real.pi ∧
    (errorOf .angular p q scale x c b = 0 ↔ ∃ r : ℝ, 0 < r ∧ x = c + r • b) := by
  have hxc : x - c ≠ 0 := sub_ne_zero.2 hx
  have key : Real.arccos (inner ℝ (normalized (x - c)) (normalized b)) =
      InnerProductGeometry.angle (x - c) b := by
    unfold normalized
    rw [InnerProductGeometry.angle, real_inner_smul_left, real_inner_smul_right]
    congr 1
    rw [div_eq_mul_inv, mul_inv]; ring
  have e : errorOf .angular p q scale x c b =
      (InnerProductGeometry.angle (x - c) b, InnerProductGeometry.angle (x - c) b) := by
    unfold errorOf; simp only [key]
  refine ⟨e, ?_, ?_, ?_⟩
  · rw [e]; exact InnerProductGeometry.angle_nonneg _ _
  · rw [e]; exact InnerProductGeometry.angle_le_pi _ _
  · rw [e, Prod.mk_eq_zero, and_self, InnerProductGeometry.angle_comm,
      InnerProductGeometry.angle_eq_zero_iff]
    constructor
    · rintro ⟨_, r, hr, h⟩
      exact ⟨r, hr, by rw [← h]; abel⟩
    · rintro ⟨r, hr, h⟩
      exact ⟨hb, r, hr, by rw [h]; abel⟩

end Kinds

example : ∃ r : ℝ, 0 < r ∧ (5 : ℝ) = 1 + r • (2 : ℝ) := ⟨2, by norm_num, by norm_num⟩
example : (errorOf .angular (0, 0) (0, 0) 1 (5 : ℝ) 1 2) = 0 :=
  ((C110_angular (0, 0) (0, 0) 1 (5 : ℝ) 1 2 (by norm_num) (by norm_num)).2.2.2).2
    ⟨2, by norm_num, by norm_num⟩

end Verif.MapCopy
