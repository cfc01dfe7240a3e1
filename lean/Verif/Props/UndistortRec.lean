import Verif.Model.UndistortRec
import Verif.Base.PyText
import Mathlib.Data.Rat.Defs
import Mathlib.Algebra.Order.Field.Rat
import Mathlib.Algebra.Group.TypeTags.Basic
import Mathlib.Data.List.Nodup
import Mathlib.Tactic.IntervalCases

/-!
# C77: shots, cameras, poses and observations of the undistorted reconstruction
-/
set_option linter.unusedSectionVars false
set_option linter.unusedSimpArgs false
namespace Verif.UndistortRec
open Verif.CameraIO Verif.Undistort Verif.Text

variable {K P M T O : Type} [Field K] [Group P]

/-! ### Specification -/

/-- An undistorted shot: its id, its camera, its pose and its metadata. -/
structure Expected (P M : Type) where
  id : Id
  camera : Id
  pose : P
  info : M

/-- Is the camera of a type that can be undistorted to one image? -/
def PlanarType (t : PType) : Prop :=
  t = .perspective ∨ t = .brown ∨ t = .fisheye ∨ t = .fisheyeOpencv ∨ t = .fisheye62

/-- The undistorted shots of a shot: none if the image is not in the data set or the type of its camera is unknown; one
with the same pose; or six around the pose of a panorama. -/
noncomputable def expected (inp : Input K P T O) (s : Src P M) : List (Expected P M) :=
  open Classical in
  if s.id ∉ inp.images then []
  else if (inp.cam s.camera).ptype = .spherical then
    faces.map (fun f => ⟨viewId inp.format s.id f, panoCamera, inp.rot f * s.pose, s.info⟩)
  else if PlanarType (inp.cam s.camera).ptype then [⟨extension inp.format s.id, s.camera, s.pose, s.info⟩]
  else []

/-- The observations of the undistorted shots of a shot. -/
noncomputable def observations (inp : Input K P T O) (s : Src P M) : List (Id × T × O) :=
  (expected inp s).flatMap (fun e =>
    ((inp.tracks.bind (fun tm => tm s.id)).getD []).filterMap (fun o =>
      if (inp.cam s.camera).ptype = .spherical then (inp.sub s.pose e.pose o.2).map (fun o' => (e.id, o.1, o'))
      else some (e.id, o.1, o.2)))

/-- The camera an undistorted shot refers to. -/
def expectedCamera (inp : Input K P T O) (k : Id) : Option (UCam K) :=
  if k = panoCamera then some ⟨1 / 2, inp.width, inp.width⟩ else undistortedCamera (inp.cam k)

/-- No camera is called like a view of a panorama or like the camera of the views. -/
def PlainCameras (shots : List (Src P M)) : Prop :=
  ∀ s ∈ shots, s.camera ≠ panoCamera ∧ ∀ f, s.camera ≠ faceName f

/-! ### Invariant -/

/-- An undistorted shot with its rig camera and rig instance. -/
structure Entry (P M : Type) where
  id : Id
  cam : Id
  rc : Id
  ri : Id
  pose : P
  info : M

def Entry.toExpected (e : Entry P M) : Expected P M := ⟨e.id, e.cam, e.pose, e.info⟩

def ids (L : List (Entry P M)) : List Id := L.map Entry.id

/-- The pose of the rig camera `k`. -/
def rigPose (rot : Face → P) (k : Id) : P := ((faces.find? (fun f => faceName f = k)).map rot).getD 1

structure Inv (inp : Input K P T O) (r : URec K P M) (L : List (Entry P M)) (n : ℕ) (A : List Id) : Prop where
  shots : r.shots = L.map (fun e => (e.id, ⟨e.cam, e.rc, e.ri, e.info⟩))
  nodup : (ids L).Nodup
  rcs : ∀ e ∈ L, (r.rigCameras.get? e.rc).isSome
  ris : ∀ e ∈ L, (r.instances.get? e.ri).isSome
  camSome : ∀ e ∈ L, (r.cameras.get? e.cam).isSome
  rig : ∀ k q, r.rigCameras.get? k = some q → q = rigPose inp.rot k
  inst : ∀ k, (r.instances.get? k).isSome → (∃ m < n, k = fmtNat m) ∨ k ∈ A
  cams : ∀ k c, r.cameras.get? k = some c → expectedCamera inp k = some c
  dot : ∀ e ∈ L, '.' ∈ e.id

/-- The poses of the shots are the right ones. -/
def Poses (inp : Input K P T O) (r : URec K P M) (L : List (Entry P M)) : Prop :=
  ∀ e ∈ L, ∀ i, r.instances.get? e.ri = some i → rigPose inp.rot e.rc * i.pose = e.pose

theorem faceName_inj : ∀ f g : Face, faceName f = faceName g → f = g := by
  intro f g; cases f <;> cases g <;> decide

theorem rigPose_face (rot : Face → P) (f : Face) : rigPose rot (faceName f) = rot f := by
  unfold rigPose
  have : faces.find? (fun g => faceName g = faceName f) = some f := by cases f <;> decide
  rw [this]; rfl

theorem rigPose_other (rot : Face → P) (k : Id) (h : ∀ f, k ≠ faceName f) : rigPose rot k = 1 := by
  unfold rigPose
  have : faces.find? (fun g => decide (faceName g = k)) = none := by
    rw [List.find?_eq_none]
    intro f _
    simpa using (h f).symm
  rw [this]; rfl

theorem extension_dot (fmt id : Id) : '.' ∈ extension fmt id := by
  unfold extension
  split
  · next h =>
    obtain ⟨t, rfl⟩ := List.isSuffixOf_iff_suffix.1 h
    simp
  · simp

theorem fmtNat_no_dot (n : ℕ) : '.' ∉ fmtNat n := by
  intro h
  obtain ⟨d, hd, he⟩ := (fmtNat_spec n).2.2 '.' h
  interval_cases d <;> revert he <;> decide

theorem fmtNat_inj {m n : ℕ} (h : fmtNat m = fmtNat n) : m = n := by
  rw [← (fmtNat_spec m).1, h, (fmtNat_spec n).1]

theorem vals_set {m : Dict Id Id} {k v x : Id} (h : x ∈ (m.set k v).vals) : x = v ∨ x ∈ m.vals := by
  unfold Dict.vals at *
  obtain ⟨⟨a, b⟩, hm, rfl⟩ := List.mem_map.1 h
  rcases Dict.mem_set hm with h | ⟨-, h⟩
  · exact Or.inr (List.mem_map.2 ⟨_, h, rfl⟩)
  · exact Or.inl h

theorem set_append {V : Type} (m : Dict Id V) (k : Id) (v : V) (h : k ∉ m.keys) : m.set k v = m ++ [(k, v)] := by
  induction m with
  | nil => rfl
  | cons p t ih =>
    obtain ⟨a, b⟩ := p
    simp only [Dict.keys_cons, List.mem_cons, not_or] at h
    simp only [Dict.set]
    rw [if_neg (Ne.symm h.1), ih h.2]
    rfl

theorem inv_keys {inp : Input K P T O} {r : URec K P M} {L : List (Entry P M)} {n : ℕ} {A : List Id}
    (h : Inv inp r L n A) : r.shots.keys = ids L := by
  rw [h.shots]; simp [Dict.keys, ids, Function.comp_def]

theorem inv_mono {inp : Input K P T O} {r : URec K P M} {L : List (Entry P M)} {n n' : ℕ} {A A' : List Id}
    (h : Inv inp r L n A) (hn : n ≤ n') (hA : ∀ k ∈ A, k ∈ A') : Inv inp r L n' A' :=
  { h with
    inst := fun k hk => (h.inst k hk).imp (fun ⟨m, hm, e⟩ => ⟨m, lt_of_lt_of_le hm hn, e⟩) (hA k) }

theorem inv_addCamera {inp : Input K P T O} {r : URec K P M} {L : List (Entry P M)} {n : ℕ} {A : List Id}
    (h : Inv inp r L n A) (k : Id) (c : UCam K) (hc : expectedCamera inp k = some c) :
    Inv inp (addCamera r k c) L n A ∧ ((addCamera r k c).cameras.get? k).isSome := by
  have hg : ∀ k', (addCamera r k c).cameras.get? k' =
      if k = k' then (if r.cameras.has k then r.cameras.get? k else some c) else r.cameras.get? k' :=
    fun k' => Dict.get?_insertNew _ _ _ _
  refine ⟨{ h with camSome := ?_, cams := ?_ }, ?_⟩
  · intro e he
    rw [hg]
    have := h.camSome e he
    split
    · next hk => subst hk; split <;> simp [this]
    · exact this
  · intro k' c' h'
    rw [hg] at h'
    split at h'
    · next hk =>
      subst hk
      split at h'
      · exact h.cams _ _ h'
      · cases h'; exact hc
    · exact h.cams _ _ h'
  · rw [hg, if_pos rfl]
    split
    · next hh => exact hh
    · rfl

theorem inv_rig {inp : Input K P T O} {r : URec K P M} {L : List (Entry P M)} {n : ℕ} {A : List Id}
    (h : Inv inp r L n A) (k : Id) (q : P) (hq : q = rigPose inp.rot k) :
    Inv inp (ensureRigCamera r k q) L n A ∧ (ensureRigCamera r k q).rigCameras.get? k = some q := by
  have hg : ∀ k', (ensureRigCamera r k q).rigCameras.get? k' =
      if k = k' then (if r.rigCameras.has k then r.rigCameras.get? k else some q) else r.rigCameras.get? k' :=
    fun k' => Dict.get?_insertNew _ _ _ _
  refine ⟨{ h with rcs := ?_, rig := ?_ }, ?_⟩
  · intro e he
    rw [hg]
    have := h.rcs e he
    split
    · next hk => subst hk; split <;> simp [this]
    · exact this
  · intro k' c' h'
    rw [hg] at h'
    split at h'
    · next hk =>
      subst hk
      split at h'
      · exact h.rig _ _ h'
      · cases h'; exact hq
    · exact h.rig _ _ h'
  · rw [hg, if_pos rfl]
    split
    · next hh =>
      obtain ⟨q', hq'⟩ := Option.isSome_iff_exists.1 hh
      rw [hq', h.rig _ _ hq', hq]
    · rfl

/-- One `CreateShot`. -/
theorem place_spec {inp : Input K P T O} {r : URec K P M} {L : List (Entry P M)} {n : ℕ} {A : List Id}
    (h : Inv inp r L n A) (id cam rc ri : Id) (pose pose' : P) (info : M)
    (hc : (r.cameras.get? cam).isSome) (hrc : (r.rigCameras.get? rc).isSome) (i : Inst P)
    (hri : r.instances.get? ri = some i) (hv : rc ∉ i.shots.vals) (hd : '.' ∈ id) :
    (id ∈ ids L → place r id cam rc ri pose info = none) ∧
    (id ∉ ids L → ∃ r', place r id cam rc ri pose info = some r' ∧
      Inv inp r' (L ++ [⟨id, cam, rc, ri, pose', info⟩]) n A ∧ r'.cameras = r.cameras ∧
      ∀ k, r'.instances.get? k =
        if ri = k then some ⟨(rigPose inp.rot rc)⁻¹ * pose, i.shots.set id rc⟩ else r.instances.get? k) := by
  obtain ⟨c, hc⟩ := Option.isSome_iff_exists.1 hc
  obtain ⟨q, hq⟩ := Option.isSome_iff_exists.1 hrc
  have hk := inv_keys h
  constructor
  · intro hin
    unfold place
    rw [if_pos]
    rw [Dict.has_iff_mem, hk]; exact hin
  · intro hin
    have hh : ¬ r.shots.has id = true := by rw [Dict.has_iff_mem, hk]; exact hin
    have hqe := h.rig _ _ hq
    have hI : ∀ k, (r.instances.set ri ⟨q⁻¹ * pose, i.shots.set id rc⟩).get? k =
        if ri = k then some ⟨(rigPose inp.rot rc)⁻¹ * pose, i.shots.set id rc⟩ else r.instances.get? k := by
      intro k; rw [Dict.get?_set, hqe]
    refine ⟨{ r with instances := r.instances.set ri ⟨q⁻¹ * pose, i.shots.set id rc⟩
                     shots := r.shots.set id ⟨cam, rc, ri, info⟩ }, ?_, ?_, rfl, hI⟩
    · unfold place
      rw [if_neg hh, hc, hq, hri]
      simp only
      rw [if_neg hv]
    · constructor
      · show r.shots.set id _ = _
        rw [set_append _ _ _ (by rw [hk]; exact hin), h.shots]
        simp
      · unfold ids at hin ⊢
        rw [List.map_append, List.map_singleton]
        exact List.Nodup.append h.nodup (List.nodup_singleton _) (by simpa [List.disjoint_singleton] using hin)
      · intro e he
        rcases List.mem_append.1 he with he | he
        · exact h.rcs e he
        · rw [List.mem_singleton.1 he]; simp [hq]
      · intro e he
        show ((r.instances.set ri _).get? e.ri).isSome
        rw [hI]
        split
        · rfl
        · next hne =>
          rcases List.mem_append.1 he with he | he
          · exact h.ris e he
          · rw [List.mem_singleton.1 he] at hne; exact absurd rfl hne
      · intro e he
        rcases List.mem_append.1 he with he | he
        · exact h.camSome e he
        · rw [List.mem_singleton.1 he]; simp [hc]
      · exact h.rig
      · intro k hk'
        have hk' : ((r.instances.set ri ⟨q⁻¹ * pose, i.shots.set id rc⟩).get? k).isSome := hk'
        rw [hI] at hk'
        split at hk'
        · next hh => subst hh; exact h.inst _ (by rw [hri]; rfl)
        · exact h.inst _ hk'
      · exact h.cams
      · intro e he
        rcases List.mem_append.1 he with he | he
        · exact h.dot e he
        · rw [List.mem_singleton.1 he]; exact hd

/-! ### One photo -/

theorem single_spec {inp : Input K P T O} {r : URec K P M} {L : List (Entry P M)} {n : ℕ}
    (h : Inv inp r L n (ids L)) (hp : Poses inp r L) (s : Src P M) (u : UCam K)
    (hu : undistortedCamera (inp.cam s.camera) = some u) (hs : s.camera ≠ panoCamera) (hf : ∀ f, s.camera ≠ faceName f) :
    (extension inp.format s.id ∈ ids L → singleView inp.format r s u = none) ∧
    (extension inp.format s.id ∉ ids L → ∃ r' e, singleView inp.format r s u = some r' ∧
      Inv inp r' (L ++ [e]) n (ids (L ++ [e])) ∧ Poses inp r' (L ++ [e]) ∧
      e.toExpected = ⟨extension inp.format s.id, s.camera, s.pose, s.info⟩) := by
  have hc : expectedCamera inp s.camera = some u := by unfold expectedCamera; rw [if_neg hs, hu]
  obtain ⟨h1, c1⟩ := inv_addCamera h _ _ hc
  have hone := rigPose_other inp.rot _ hf
  obtain ⟨h2, c2⟩ := inv_rig h1 s.camera 1 hone.symm
  generalize hr2 : ensureRigCamera (addCamera r s.camera u) s.camera 1 = r2 at h2 c2
  have c1' : (r2.cameras.get? s.camera).isSome := by rw [← hr2]; exact c1
  have hi2 : r2.instances = r.instances := by rw [← hr2]; rfl
  generalize hid : extension inp.format s.id = uid
  have hdot : '.' ∈ uid := by rw [← hid]; exact extension_dot _ _
  have hsv : singleView inp.format r s u = place (ensureInstance r2 uid) uid s.camera s.camera uid s.pose s.info := by
    unfold singleView; simp only; rw [hid, hr2]
  rw [hsv]
  have hg : ∀ k', (ensureInstance r2 uid).instances.get? k' =
      if uid = k' then (if r2.instances.has uid then r2.instances.get? uid else some ⟨1, []⟩)
      else r2.instances.get? k' := fun k' => Dict.get?_insertNew _ _ _ _
  have h3 : Inv inp (ensureInstance r2 uid) L n (ids L ++ [uid]) := by
    refine { h2 with ris := ?_, inst := ?_ }
    · intro e he
      rw [hg]
      have := h2.ris e he
      split
      · next hk => subst hk; split <;> simp [this]
      · exact this
    · intro k hk
      rw [hg] at hk
      split at hk
      · next hh => right; rw [← hh]; simp
      · exact (h2.inst k hk).imp id (fun h => by simp [h])
  constructor
  · intro hin
    unfold place
    rw [if_pos]
    rw [Dict.has_iff_mem, inv_keys h3]; exact hin
  · intro hin
    have hno : r2.instances.has uid = false := by
      cases hb : r2.instances.has uid with
      | false => rfl
      | true =>
        rcases h2.inst uid hb with ⟨m, -, hm⟩ | hm
        · rw [hm] at hdot; exact absurd hdot (fmtNat_no_dot m)
        · exact absurd hm hin
    have hgi : (ensureInstance r2 uid).instances.get? uid = some ⟨1, []⟩ := by
      rw [hg, if_pos rfl, hno]; rfl
    obtain ⟨r', e1, e2, -, e4⟩ := (place_spec h3 uid s.camera s.camera uid s.pose s.pose s.info c1' (by
      show (r2.rigCameras.get? _).isSome; rw [c2]; rfl) ⟨1, []⟩ hgi (by simp [Dict.vals]) hdot).2 hin
    refine ⟨r', ⟨uid, s.camera, s.camera, uid, s.pose, s.info⟩, e1, ?_, ?_, rfl⟩
    · have : ids (L ++ [(⟨uid, s.camera, s.camera, uid, s.pose, s.info⟩ : Entry P M)]) = ids L ++ [uid] := by
        simp [ids]
      rw [this]; exact e2
    · intro e he i hi
      rw [e4] at hi
      rcases List.mem_append.1 he with he | he
      · have hne : uid ≠ e.ri := by
          intro hh
          have := h.ris e he
          rw [← hi2, ← hh] at this
          unfold Dict.has at hno
          rw [hno] at this; cases this
        rw [if_neg hne, hg, if_neg hne, hi2] at hi
        exact hp e he i hi
      · rw [List.mem_singleton.1 he] at hi ⊢
        rw [if_pos rfl] at hi
        cases hi
        simp only
        rw [mul_inv_cancel_left]

/-! ### One panorama -/

theorem viewStep_none (rot : Face → P) (fmt inst : Id) (s : Src P M) (l : List Face) :
    l.foldl (viewStep (K := K) rot fmt inst s) none = none := by
  induction l with
  | nil => rfl
  | cons f l ih => rw [List.foldl_cons]; exact ih

def viewEntry (inp : Input K P T O) (inst : Id) (s : Src P M) (f : Face) : Entry P M :=
  ⟨viewId inp.format s.id f, panoCamera, faceName f, inst, inp.rot f * s.pose, s.info⟩

theorem views_spec {inp : Input K P T O} {n : ℕ} {A : List Id} (s : Src P M) (inst : Id) (G : List Face)
    (hG : G.Nodup) : ∀ (r : URec K P M) (L : List (Entry P M)), Inv inp r L n A →
    (r.cameras.get? panoCamera).isSome → ∀ i, r.instances.get? inst = some i →
    (∀ f ∈ G, faceName f ∉ i.shots.vals) →
    ((ids L ++ G.map (viewId inp.format s.id)).Nodup →
      ∃ r' i', G.foldl (viewStep inp.rot inp.format inst s) (some r) = some r' ∧
        Inv inp r' (L ++ G.map (viewEntry inp inst s)) n A ∧ r'.instances.get? inst = some i' ∧
        ∀ k, k ≠ inst → r'.instances.get? k = r.instances.get? k) ∧
    (¬ (ids L ++ G.map (viewId inp.format s.id)).Nodup →
      G.foldl (viewStep inp.rot inp.format inst s) (some r) = none) := by
  induction G with
  | nil =>
    intro r L h _ i hi _
    refine ⟨fun _ => ⟨r, i, rfl, by simpa using h, hi, fun _ _ => rfl⟩, fun hn => ?_⟩
    exact absurd (by simpa using h.nodup) hn
  | cons f G ih =>
    intro r L h hc i hi hv
    obtain ⟨h2, c2⟩ := inv_rig h (faceName f) (inp.rot f) (rigPose_face inp.rot f).symm
    have hpl := place_spec h2 (viewId inp.format s.id f) panoCamera (faceName f) inst 1 (inp.rot f * s.pose) s.info hc
      (by rw [c2]; rfl) i hi (hv f (by simp)) (extension_dot _ _)
    rw [List.foldl_cons]
    have hstep : viewStep inp.rot inp.format inst s (some r) f =
        place (ensureRigCamera r (faceName f) (inp.rot f)) (viewId inp.format s.id f) panoCamera (faceName f) inst 1
          s.info := rfl
    rw [hstep]
    by_cases hin : viewId inp.format s.id f ∈ ids L
    · rw [hpl.1 hin, viewStep_none]
      refine ⟨fun hn => ?_, fun _ => rfl⟩
      rw [List.map_cons, List.nodup_append] at hn
      exact absurd rfl (hn.2.2 _ hin _ (by simp))
    · obtain ⟨r', e1, e2, e3, e4⟩ := hpl.2 hin
      rw [e1]
      have hGn := (List.nodup_cons.1 hG)
      obtain ⟨a, b⟩ := ih hGn.2 r' _ e2 (by rw [e3]; exact hc) _ (by rw [e4, if_pos rfl]) (by
        intro g hg hm
        rcases vals_set hm with hm | hm
        · exact hGn.1 (faceName_inj _ _ hm ▸ hg)
        · exact hv g (by simp [hg]) hm)
      have hids : ids (L ++ [(⟨viewId inp.format s.id f, panoCamera, faceName f, inst, inp.rot f * s.pose, s.info⟩ :
          Entry P M)]) ++ G.map (viewId inp.format s.id) = ids L ++ (f :: G).map (viewId inp.format s.id) := by
        simp [ids]
      rw [hids] at a b
      refine ⟨fun hn => ?_, b⟩
      obtain ⟨r'', i', f1, f2, f3, f4⟩ := a hn
      refine ⟨r'', i', f1, ?_, f3, ?_⟩
      · have : L ++ [(⟨viewId inp.format s.id f, panoCamera, faceName f, inst, inp.rot f * s.pose, s.info⟩ :
          Entry P M)] ++ G.map (viewEntry inp inst s) = L ++ (f :: G).map (viewEntry inp inst s) := by
          simp [viewEntry]
        rw [← this]; exact f2
      · intro k hk
        rw [f4 k hk, e4, if_neg (Ne.symm hk)]
        rfl

theorem pano_spec {inp : Input K P T O} {r : URec K P M} {L : List (Entry P M)} {n : ℕ}
    (h : Inv inp r L n (ids L)) (hp : Poses inp r L) (s : Src P M) :
    (¬ (ids L ++ faces.map (viewId inp.format s.id)).Nodup → panoViews inp.rot inp.format inp.width n r s = none) ∧
    ((ids L ++ faces.map (viewId inp.format s.id)).Nodup → ∃ r', panoViews inp.rot inp.format inp.width n r s = some r' ∧
      Inv inp r' (L ++ faces.map (viewEntry inp (fmtNat n) s)) (n + 1)
        (ids (L ++ faces.map (viewEntry inp (fmtNat n) s))) ∧
      Poses inp r' (L ++ faces.map (viewEntry inp (fmtNat n) s))) := by
  obtain ⟨h1, c1⟩ := inv_addCamera h panoCamera ⟨1 / 2, inp.width, inp.width⟩ (by unfold expectedCamera; rw [if_pos rfl])
  generalize hr1 : addCamera r panoCamera ⟨1 / 2, inp.width, inp.width⟩ = r1 at h1 c1
  have hi1 : r1.instances = r.instances := by rw [← hr1]; rfl
  have hfresh : ∀ e ∈ L, e.ri ≠ fmtNat n := by
    intro e he hh
    rcases h.inst e.ri (h.ris e he) with ⟨m, hm, e'⟩ | h'
    · rw [hh] at e'
      have := fmtNat_inj e'
      omega
    · obtain ⟨e', he', hh'⟩ := List.mem_map.1 h'
      have := h.dot e' he'
      rw [hh', hh] at this
      exact fmtNat_no_dot n this
  set r2 : URec K P M := { r1 with instances := r1.instances.set (fmtNat n) ⟨1, []⟩ } with hr2
  have hg : ∀ k, r2.instances.get? k = if fmtNat n = k then some ⟨1, []⟩ else r.instances.get? k := by
    intro k; rw [hr2]; simp only; rw [Dict.get?_set, hi1]
  have h2 : Inv inp r2 L (n + 1) (ids L) := by
    refine { h1 with ris := ?_, inst := ?_ }
    · intro e he
      rw [hg]
      split
      · rfl
      · exact h.ris e he
    · intro k hk
      rw [hg] at hk
      split at hk
      · next hh => exact Or.inl ⟨n, by omega, hh.symm⟩
      · exact (h.inst k hk).imp (fun ⟨m, hm, e⟩ => ⟨m, by omega, e⟩) (fun x => x)
  obtain ⟨a, b⟩ := views_spec s (fmtNat n) faces (by decide) r2 L h2 (by rw [hr2]; exact c1) ⟨1, []⟩
    (by rw [hg, if_pos rfl]) (by simp [Dict.vals])
  have hpv : panoViews inp.rot inp.format inp.width n r s =
      (faces.foldl (viewStep inp.rot inp.format (fmtNat n) s) (some r2)).map
        (fun r => setInstancePose r (fmtNat n) s.pose) := by
    unfold panoViews; simp only; rw [hr1]
  rw [hpv]
  constructor
  · intro hn; rw [b hn]; rfl
  · intro hn
    obtain ⟨r', i', e1, e2, e3, e4⟩ := a hn
    refine ⟨setInstancePose r' (fmtNat n) s.pose, by rw [e1]; rfl, ?_, ?_⟩
    · have hs : setInstancePose r' (fmtNat n) s.pose = { r' with instances := r'.instances.set (fmtNat n) ⟨s.pose, i'.shots⟩ } := by
        unfold setInstancePose; rw [e3]
      rw [hs]
      have e2' := inv_mono e2 (le_refl _) (A' := ids (L ++ faces.map (viewEntry inp (fmtNat n) s))) (by
        intro k hk; unfold ids at *; rw [List.map_append]; simp only [List.mem_append]; exact Or.inl hk)
      refine { e2' with ris := ?_, inst := ?_ }
      · intro e he
        simp only
        rw [Dict.get?_set]
        split
        · rfl
        · exact e2'.ris e he
      · intro k hk
        simp only at hk
        rw [Dict.get?_set] at hk
        split at hk
        · next hh => exact e2'.inst k (by rw [← hh, e3]; rfl)
        · exact e2'.inst k hk
    · intro e he i hi
      have hs : (setInstancePose r' (fmtNat n) s.pose).instances = r'.instances.set (fmtNat n) ⟨s.pose, i'.shots⟩ := by
        unfold setInstancePose; rw [e3]
      rw [hs, Dict.get?_set] at hi
      rcases List.mem_append.1 he with he | he
      · rw [if_neg (Ne.symm (hfresh e he)), e4 _ (hfresh e he), hg, if_neg (Ne.symm (hfresh e he))] at hi
        exact hp e he i hi
      · obtain ⟨f, -, rfl⟩ := List.mem_map.1 he
        have hi : some (⟨s.pose, i'.shots⟩ : Inst P) = some i := by
          rw [← hi]; exact (if_pos rfl).symm
        cases hi
        show rigPose inp.rot (faceName f) * _ = _
        rw [rigPose_face]
        rfl

/-! ### The whole reconstruction -/

theorem shotPose_of {inp : Input K P T O} {r : URec K P M} {L : List (Entry P M)} {n : ℕ} {A : List Id}
    (h : Inv inp r L n A) (hp : Poses inp r L) (e : Entry P M) (he : e ∈ L) :
    r.shots.get? e.id = some ⟨e.cam, e.rc, e.ri, e.info⟩ ∧ shotPose r e.id = some e.pose := by
  have hg : r.shots.get? e.id = some ⟨e.cam, e.rc, e.ri, e.info⟩ := by
    apply Dict.get?_of_mem
    · unfold Dict.Wf; rw [inv_keys h]; exact h.nodup
    · rw [h.shots]; exact List.mem_map.2 ⟨e, he, rfl⟩
  refine ⟨hg, ?_⟩
  unfold shotPose
  rw [hg, Option.bind_some]
  obtain ⟨q, hq⟩ := Option.isSome_iff_exists.1 (h.rcs e he)
  obtain ⟨i, hi⟩ := Option.isSome_iff_exists.1 (h.ris e he)
  simp only [hq, hi]
  rw [h.rig _ _ hq, hp e he i hi]

theorem planar_iff (c : CamInfo K) : PlanarType c.ptype ↔ (undistortedCamera c).isSome := by
  unfold PlanarType undistortedCamera
  cases c.ptype <;> simp

theorem step_none (inp : Input K P T O) (l : List (Src P M)) : l.foldl (step inp) none = none := by
  induction l with
  | nil => rfl
  | cons f l ih => rw [List.foldl_cons]; exact ih

/-- The invariant of the loop. -/
structure Good (inp : Input K P T O) (done : List (Src P M)) (st : State K P M T O) (L : List (Entry P M)) : Prop where
  inv : Inv inp st.rec' L st.count (ids L)
  poses : Poses inp st.rec' L
  entries : L.map Entry.toExpected = done.flatMap (expected inp)
  undistorted : st.undistorted =
    (done.filter (fun s => !(expected inp s).isEmpty)).map (fun s => (s.id, (expected inp s).map Expected.id))
  calls : st.calls = done.flatMap (observations inp)

theorem calls_single (inp : Input K P T O) (s : Src P M) (r : URec K P M) (uid : Id)
    (h : (inp.cam s.camera).ptype ≠ .spherical) :
    subshotCalls inp s r uid = ((inp.tracks.bind (fun tm => tm s.id)).getD []).filterMap (fun o =>
      if (inp.cam s.camera).ptype = .spherical then (inp.sub s.pose s.pose o.2).map (fun o' => (uid, o.1, o'))
      else some (uid, o.1, o.2)) := by
  unfold subshotCalls
  simp only [if_neg h]
  cases inp.tracks with
  | none => rfl
  | some tm =>
    simp only [Option.bind_some]
    cases tm s.id with
    | none => rfl
    | some obs => simp

theorem calls_pano (inp : Input K P T O) (s : Src P M) (r : URec K P M) (uid : Id) (v : P)
    (h : (inp.cam s.camera).ptype = .spherical) (hv : shotPose r uid = some v) :
    subshotCalls inp s r uid = ((inp.tracks.bind (fun tm => tm s.id)).getD []).filterMap (fun o =>
      if (inp.cam s.camera).ptype = .spherical then (inp.sub s.pose v o.2).map (fun o' => (uid, o.1, o'))
      else some (uid, o.1, o.2)) := by
  unfold subshotCalls
  simp only [if_pos h, hv, Option.bind_some]
  cases inp.tracks with
  | none => rfl
  | some tm =>
    simp only [Option.bind_some]
    cases tm s.id with
    | none => rfl
    | some obs => rfl

theorem ids_entries {inp : Input K P T O} {done : List (Src P M)} {st : State K P M T O} {L : List (Entry P M)}
    (h : Good inp done st L) : ids L = (done.flatMap (expected inp)).map Expected.id := by
  rw [← h.entries, List.map_map]; rfl

theorem good_skip {inp : Input K P T O} {done : List (Src P M)} {st : State K P M T O} {L : List (Entry P M)}
    (h : Good inp done st L) (s : Src P M) (he : expected inp s = []) : Good inp (done ++ [s]) st L := by
  have ho : observations inp s = [] := by unfold observations; rw [he]; rfl
  refine ⟨h.inv, h.poses, ?_, ?_, ?_⟩
  · rw [List.flatMap_append, h.entries]; simp [he]
  · rw [List.filter_append, List.map_append, h.undistorted]; simp [he]
  · rw [List.flatMap_append, h.calls]; simp [ho]

theorem good_add {inp : Input K P T O} {done : List (Src P M)} {st : State K P M T O} {L : List (Entry P M)}
    (h : Good inp done st L) (s : Src P M) (hne : expected inp s ≠ []) (hnew : ∀ t ∈ done, t.id ≠ s.id)
    (r' : URec K P M) (n' : ℕ) (L' : List (Entry P M)) (hL : L'.map Entry.toExpected = expected inp s)
    (hi : Inv inp r' (L ++ L') n' (ids (L ++ L'))) (hp : Poses inp r' (L ++ L'))
    (hc : ((expected inp s).map Expected.id).flatMap (subshotCalls inp s r') = observations inp s) :
    Good inp (done ++ [s]) ⟨r', n', st.undistorted.set s.id ((expected inp s).map Expected.id),
      st.calls ++ ((expected inp s).map Expected.id).flatMap (subshotCalls inp s r')⟩ (L ++ L') := by
  refine ⟨hi, hp, ?_, ?_, ?_⟩
  · rw [List.map_append, List.flatMap_append, h.entries, hL]; simp
  · have hk : s.id ∉ st.undistorted.keys := by
      rw [h.undistorted]
      simp only [Dict.keys, List.map_map]
      intro hm
      obtain ⟨t, ht, e⟩ := List.mem_map.1 hm
      exact hnew t (List.mem_filter.1 ht).1 e
    show st.undistorted.set s.id _ = _
    rw [set_append _ _ _ hk, List.filter_append, List.map_append, h.undistorted]
    have : (!(expected inp s).isEmpty) = true := by
      cases hx : expected inp s with
      | nil => exact absurd hx hne
      | cons a l => rfl
    rw [List.filter_singleton, this]
    rfl
  · show st.calls ++ _ = _
    rw [List.flatMap_append, h.calls, hc]; simp

theorem step_spec {inp : Input K P T O} {done : List (Src P M)} {st : State K P M T O} {L : List (Entry P M)}
    (h : Good inp done st L) (s : Src P M) (hs : s.camera ≠ panoCamera) (hf : ∀ f, s.camera ≠ faceName f)
    (hnew : ∀ t ∈ done, t.id ≠ s.id) :
    ((((done ++ [s]).flatMap (expected inp)).map Expected.id).Nodup →
      ∃ st' L', step inp (some st) s = some st' ∧ Good inp (done ++ [s]) st' L') ∧
    (¬ (((done ++ [s]).flatMap (expected inp)).map Expected.id).Nodup → step inp (some st) s = none) := by
  have hids : ((done ++ [s]).flatMap (expected inp)).map Expected.id = ids L ++ (expected inp s).map Expected.id := by
    rw [List.flatMap_append, List.map_append, ids_entries h]; simp
  rw [hids]
  have skip : expected inp s = [] → step inp (some st) s = some st →
      (((ids L ++ (expected inp s).map Expected.id).Nodup →
        ∃ st' L', step inp (some st) s = some st' ∧ Good inp (done ++ [s]) st' L') ∧
      (¬ (ids L ++ (expected inp s).map Expected.id).Nodup → step inp (some st) s = none)) := by
    intro he hst
    refine ⟨fun _ => ⟨st, L, hst, good_skip h s he⟩, fun hn => absurd ?_ hn⟩
    rw [he]; simpa using h.inv.nodup
  by_cases him : s.id ∈ inp.images
  swap
  · refine skip ?_ ?_
    · unfold expected; rw [if_pos him]
    · unfold step; rw [Option.bind_some, if_neg him]
  have hstep : step inp (some st) s = (subshots inp st.rec' st.count s).map (afterShot inp st s) := by
    unfold step; rw [Option.bind_some, if_pos him]
  by_cases hsp : (inp.cam s.camera).ptype = .spherical
  · have he : expected inp s =
        faces.map (fun f => ⟨viewId inp.format s.id f, panoCamera, inp.rot f * s.pose, s.info⟩) := by
      unfold expected; rw [if_neg (not_not.2 him), if_pos hsp]
    have hei : (expected inp s).map Expected.id = faces.map (viewId inp.format s.id) := by
      rw [he, List.map_map]; rfl
    have hsub : subshots inp st.rec' st.count s = (panoViews inp.rot inp.format inp.width st.count st.rec' s).map
        (fun r' => some (r', st.count + 1, faces.map (viewId inp.format s.id))) := by
      unfold subshots; rw [if_pos hsp]
    obtain ⟨a, b⟩ := pano_spec h.inv h.poses s
    constructor
    · intro hn
      rw [hei] at hn
      obtain ⟨r', e1, e2, e3⟩ := b hn
      refine ⟨_, L ++ faces.map (viewEntry inp (fmtNat st.count) s), ?_, good_add h s ?_ hnew r' (st.count + 1) _ ?_ e2 e3 ?_⟩
      · rw [hstep, hsub, e1, hei]; rfl
      · rw [he]; simp [faces]
      · rw [he, List.map_map]; rfl
      · unfold observations
        rw [he, List.flatMap_map, List.flatMap_map, List.flatMap_map]
        refine List.flatMap_congr (fun f hf => ?_)
        have := shotPose_of e2 e3 (viewEntry inp (fmtNat st.count) s f) (by
          rw [List.mem_append]; exact Or.inr (List.mem_map.2 ⟨f, hf, rfl⟩))
        exact calls_pano inp s r' _ _ hsp this.2
    · intro hn
      rw [hei] at hn
      rw [hstep, hsub, a hn]; rfl
  · cases hu : undistortedCamera (inp.cam s.camera) with
    | none =>
      have hpl : ¬ PlanarType (inp.cam s.camera).ptype := by rw [planar_iff, hu]; simp
      refine skip ?_ ?_
      · unfold expected; rw [if_neg (not_not.2 him), if_neg hsp, if_neg hpl]
      · rw [hstep]; unfold subshots; rw [if_neg hsp, hu]; rfl
    | some u =>
      have hpl : PlanarType (inp.cam s.camera).ptype := by rw [planar_iff, hu]; rfl
      have he : expected inp s = [⟨extension inp.format s.id, s.camera, s.pose, s.info⟩] := by
        unfold expected; rw [if_neg (not_not.2 him), if_neg hsp, if_pos hpl]
      have hsub : subshots inp st.rec' st.count s = (singleView inp.format st.rec' s u).map
          (fun r' => some (r', st.count, [extension inp.format s.id])) := by
        unfold subshots; rw [if_neg hsp, hu]
      obtain ⟨a, b⟩ := single_spec h.inv h.poses s u hu hs hf
      have hnd : (ids L ++ (expected inp s).map Expected.id).Nodup ↔ extension inp.format s.id ∉ ids L := by
        rw [he]
        simp only [List.map_cons, List.map_nil]
        rw [List.nodup_append]
        constructor
        · intro hh hm; exact hh.2.2 _ hm _ (by simp) rfl
        · intro hm
          refine ⟨h.inv.nodup, List.nodup_singleton _, ?_⟩
          intro x hx y hy hxy
          rw [List.mem_singleton.1 hy] at hxy
          exact hm (hxy ▸ hx)
      rw [hnd]
      constructor
      · intro hn
        obtain ⟨r', e, e1, e2, e3, e4⟩ := b hn
        have hg := good_add h s (by rw [he]; simp) hnew r' st.count [e] (by rw [he]; simp [e4]) e2 e3 (by
          unfold observations
          rw [he]
          simp only [List.map_cons, List.map_nil, List.flatMap_cons, List.flatMap_nil, List.append_nil]
          exact calls_single inp s r' _ hsp)
        refine ⟨_, _, ?_, hg⟩
        rw [hstep, hsub, e1, he]; rfl
      · intro hn
        rw [not_not] at hn
        rw [hstep, hsub, a hn]; rfl

theorem fold_spec (inp : Input K P T O) (todo : List (Src P M)) : ∀ (done : List (Src P M)) (st : State K P M T O)
    (L : List (Entry P M)), Good inp done st L → PlainCameras todo → ((done ++ todo).map Src.id).Nodup →
    ((((done ++ todo).flatMap (expected inp)).map Expected.id).Nodup →
      ∃ st' L', todo.foldl (step inp) (some st) = some st' ∧ Good inp (done ++ todo) st' L') ∧
    (¬ (((done ++ todo).flatMap (expected inp)).map Expected.id).Nodup → todo.foldl (step inp) (some st) = none) := by
  induction todo with
  | nil =>
    intro done st L h _ _
    refine ⟨fun _ => ⟨st, L, rfl, by simpa using h⟩, fun hn => absurd ?_ hn⟩
    rw [List.append_nil, ← ids_entries h]; exact h.inv.nodup
  | cons s todo ih =>
    intro done st L h hc hd
    have hs := hc s (by simp)
    have hnew : ∀ t ∈ done, t.id ≠ s.id := by
      intro t ht e
      rw [List.map_append, List.nodup_append] at hd
      exact hd.2.2 t.id (List.mem_map.2 ⟨t, ht, rfl⟩) s.id (by simp) e
    obtain ⟨a, b⟩ := step_spec h s hs.1 hs.2 hnew
    have happ : done ++ s :: todo = (done ++ [s]) ++ todo := by simp
    rw [happ, List.foldl_cons]
    by_cases hn : (((done ++ [s]).flatMap (expected inp)).map Expected.id).Nodup
    · obtain ⟨st', L', e1, e2⟩ := a hn
      rw [e1]
      exact ih (done ++ [s]) st' L' e2 (fun t ht => hc t (by simp [ht])) (by rw [← happ]; exact hd)
    · rw [b hn, step_none]
      refine ⟨fun hh => absurd ?_ hn, fun _ => rfl⟩
      rw [List.flatMap_append, List.map_append, List.nodup_append] at hh
      exact hh.1

/-! ### Theorems -/

/-- C77. Undistortion succeeds exactly if the ids of the undistorted shots are all different. Then the undistorted
reconstruction has exactly these shots, in this order, each with the metadata and the pose of its original (turned by
the rotation of its face for a panorama); the list of undistorted shots of each image and the undistorted
observations are the expected ones. -/
theorem C77_shots (inp : Input K P T O) (shots : List (Src P M)) (hc : PlainCameras shots)
    (hd : (shots.map Src.id).Nodup) :
    ((∃ st, undistort inp shots = some st) ↔ ((shots.flatMap (expected inp)).map Expected.id).Nodup) ∧
    ∀ st, undistort inp shots = some st →
      st.rec'.shots.keys = (shots.flatMap (expected inp)).map Expected.id ∧
      (∀ e ∈ shots.flatMap (expected inp), ∃ u, st.rec'.shots.get? e.id = some u ∧ u.camera = e.camera ∧
        u.info = e.info ∧ shotPose st.rec' e.id = some e.pose ∧
        ∃ c, st.rec'.cameras.get? e.camera = some c ∧ expectedCamera inp e.camera = some c) ∧
      st.undistorted =
        (shots.filter (fun s => !(expected inp s).isEmpty)).map (fun s => (s.id, (expected inp s).map Expected.id)) ∧
      st.calls = shots.flatMap (observations inp) := by
  have h0 : Good inp ([] : List (Src P M)) {} [] := by
    refine ⟨⟨rfl, List.nodup_nil, ?_, ?_, ?_, ?_, ?_, ?_, ?_⟩, ?_, rfl, rfl, rfl⟩
    · intro e he; cases he
    · intro e he; cases he
    · intro e he; cases he
    · intro k q h; cases h
    · intro k h; cases h
    · intro k c h; cases h
    · intro e he; cases he
    · intro e he; cases he
  obtain ⟨a, b⟩ := fold_spec inp shots [] {} [] h0 hc (by simpa using hd)
  simp only [List.nil_append] at a b
  constructor
  · constructor
    · rintro ⟨st, hst⟩
      by_contra hn
      unfold undistort at hst
      rw [b hn] at hst; cases hst
    · intro hn
      obtain ⟨st, L, e, -⟩ := a hn
      exact ⟨st, e⟩
  · intro st hst
    have hn : ((shots.flatMap (expected inp)).map Expected.id).Nodup := by
      by_contra hn
      unfold undistort at hst
      rw [b hn] at hst; cases hst
    obtain ⟨st', L, e, g⟩ := a hn
    unfold undistort at hst
    rw [hst] at e
    cases e
    refine ⟨by rw [inv_keys g.inv, ids_entries g], ?_, g.undistorted, g.calls⟩
    intro e he
    rw [← g.entries] at he
    obtain ⟨x, hx, rfl⟩ := List.mem_map.1 he
    obtain ⟨h1, h2⟩ := shotPose_of g.inv g.poses x hx
    obtain ⟨c, hc'⟩ := Option.isSome_iff_exists.1 (g.inv.camSome x hx)
    exact ⟨_, h1, rfl, rfl, h2, c, hc', g.inv.cams _ _ hc'⟩

/-- C77. The cameras of the undistorted shots: perspective, without distortion, of the size of the original; the focal
length is the original one, or the mean of the two focal lengths of a camera that has two. -/
theorem C77_camera (inp : Input K P T O) (k : Id) (hk : k ≠ panoCamera) :
    (∀ c, expectedCamera inp k = some c → c.width = (inp.cam k).width ∧ c.height = (inp.cam k).height) ∧
    ((inp.cam k).ptype = .perspective ∨ (inp.cam k).ptype = .fisheye →
      ∃ c, expectedCamera inp k = some c ∧ c.focal = (inp.cam k).focal) ∧
    ((inp.cam k).ptype = .brown ∨ (inp.cam k).ptype = .fisheyeOpencv ∨ (inp.cam k).ptype = .fisheye62 →
      ∃ c, expectedCamera inp k = some c ∧
        c.focal = ((inp.cam k).focal + (inp.cam k).focal * (inp.cam k).aspect) / 2) ∧
    expectedCamera inp panoCamera = some ⟨1 / 2, inp.width, inp.width⟩ := by
  have he : expectedCamera inp k = undistortedCamera (inp.cam k) := by unfold expectedCamera; rw [if_neg hk]
  rw [he]
  refine ⟨?_, ?_, ?_, ?_⟩
  · intro c h
    unfold undistortedCamera at h
    cases ht : (inp.cam k).ptype <;> rw [ht] at h <;> simp at h <;> subst h <;> exact ⟨rfl, rfl⟩
  · rintro (h | h) <;> unfold undistortedCamera <;> rw [h] <;> exact ⟨_, rfl, rfl⟩
  · rintro (h | h | h) <;> unfold undistortedCamera <;> rw [h] <;> exact ⟨_, rfl, by simp only; ring⟩
  · unfold expectedCamera; rw [if_pos rfl]

/-- C77. Ids: the undistorted image of a photo is the photo's id if it already has the extension, else the id with the
extension appended; two different photos clash exactly if one id is the other with the extension. -/
theorem C77_ids (fmt a b : Id) (hne : a ≠ b) :
    (extension fmt a = a ∨ extension fmt a = a ++ '.' :: fmt) ∧ (∃ t, extension fmt a = t ++ '.' :: fmt) ∧
    (extension fmt a = extension fmt b ↔
      (a = b ++ '.' :: fmt ∧ ¬ ('.' :: fmt) <:+ b) ∨ (b = a ++ '.' :: fmt ∧ ¬ ('.' :: fmt) <:+ a)) := by
  have hx : ∀ x, (('.' :: fmt) <:+ x → extension fmt x = x) ∧ (¬ ('.' :: fmt) <:+ x → extension fmt x = x ++ '.' :: fmt) := by
    intro x
    unfold extension
    constructor
    · intro h; rw [if_pos (List.isSuffixOf_iff_suffix.2 h)]
    · intro h; rw [if_neg (fun hh => h (List.isSuffixOf_iff_suffix.1 hh))]
  refine ⟨?_, ?_, ?_⟩
  · by_cases h : ('.' :: fmt) <:+ a
    · exact Or.inl ((hx a).1 h)
    · exact Or.inr ((hx a).2 h)
  · by_cases h : ('.' :: fmt) <:+ a
    · rw [(hx a).1 h]; obtain ⟨t, ht⟩ := h; exact ⟨t, ht.symm⟩
    · rw [(hx a).2 h]; exact ⟨a, rfl⟩
  · by_cases h1 : ('.' :: fmt) <:+ a <;> by_cases h2 : ('.' :: fmt) <:+ b
    · rw [(hx a).1 h1, (hx b).1 h2]
      simp [h1, h2, hne]
    · rw [(hx a).1 h1, (hx b).2 h2]
      simp [h1, h2]
    · rw [(hx a).2 h1, (hx b).1 h2]
      simp [h1, h2, eq_comm]
    · rw [(hx a).2 h1, (hx b).2 h2, List.append_left_inj]
      constructor
      · intro h; exact absurd h hne
      · rintro (⟨h, -⟩ | ⟨h, -⟩)
        · exact absurd ⟨b, h.symm⟩ h1
        · exact absurd ⟨a, h.symm⟩ h2

/-- C77. The six views of a panorama are called front, left, back, right, top and bottom; their ids are the id of the
panorama, `_perspective_view_`, the name and the extension, and are all different. -/
theorem C77_views (fmt a : Id) (hf : '_' ∉ fmt) :
    (faces.map (viewId fmt a)) =
      ["front", "left", "back", "right", "top", "bottom"].map
        (fun n => a ++ "_perspective_view_".toList ++ n.toList ++ '.' :: fmt) ∧
    (faces.map (viewId fmt a)).Nodup := by
  have key : ∀ f, viewId fmt a f = a ++ "_perspective_view_".toList ++ faceName f ++ '.' :: fmt := by
    intro f
    unfold viewId extension
    rw [if_neg]
    rw [List.isSuffixOf_iff_suffix]
    intro ht
    have hs : ('_' :: faceName f) <:+ a ++ "_perspective_view_".toList ++ faceName f :=
      ⟨a ++ "_perspective_view".toList, by
        rw [show "_perspective_view_".toList = "_perspective_view".toList ++ ['_'] by decide]; simp⟩
    rcases List.suffix_or_suffix_of_suffix ht hs with h | h
    · have h1 : '.' ∈ '_' :: faceName f := h.subset (by simp)
      revert h1; cases f <;> decide
    · have h1 : '_' ∈ '.' :: fmt := h.subset (by simp)
      rcases List.mem_cons.1 h1 with h1 | h1
      · revert h1; decide
      · exact hf h1
  have hm : faces.map (viewId fmt a) =
      faces.map (fun f => a ++ "_perspective_view_".toList ++ faceName f ++ '.' :: fmt) :=
    List.map_congr_left (fun f _ => key f)
  refine ⟨by rw [hm]; rfl, ?_⟩
  rw [hm]
  refine List.Nodup.map ?_ (by decide)
  intro f g h
  simp only [List.append_left_inj, List.append_right_inj, List.append_assoc] at h
  exact faceName_inj f g (by simpa using h)

/-- C77. Two photos `x` and `x.jpg` of the data set (with undistorted images in jpg) make undistortion fail. -/
theorem C77_clash (inp : Input K P T O) (shots : List (Src P M)) (hc : PlainCameras shots)
    (hd : (shots.map Src.id).Nodup) (s t : Src P M) (hs : s ∈ shots) (ht : t ∈ shots)
    (his : s.id ∈ inp.images) (hit : t.id ∈ inp.images)
    (hps : PlanarType (inp.cam s.camera).ptype) (hpt : PlanarType (inp.cam t.camera).ptype)
    (he : t.id = s.id ++ '.' :: inp.format) (hn : ¬ ('.' :: inp.format) <:+ s.id) : undistort inp shots = none := by
  have hexp : ∀ x : Src P M, x.id ∈ inp.images → PlanarType (inp.cam x.camera).ptype →
      expected inp x = [⟨extension inp.format x.id, x.camera, x.pose, x.info⟩] := by
    intro x hx hp
    unfold expected
    rw [if_neg (not_not.2 hx), if_neg, if_pos hp]
    intro hsp; rw [hsp] at hp; unfold PlanarType at hp; simp at hp
  have hst : s ≠ t := by
    intro h; subst h
    have := congrArg List.length he
    simp at this
  have hsame : extension inp.format s.id = extension inp.format t.id :=
    (C77_ids inp.format s.id t.id (by rw [he]; intro h; have := congrArg List.length h; simp at this)).2.2.2
      (Or.inr ⟨he, hn⟩)
  cases hu : undistort inp shots with
  | none => rfl
  | some st =>
    exfalso
    have hnd := ((C77_shots inp shots hc hd).1.1 ⟨st, hu⟩)
    rw [List.map_flatMap, List.nodup_flatMap] at hnd
    have hpw := hnd.2
    have hne' := List.Pairwise.forall_of_forall_of_flip (l := shots)
      (R := fun x y => x ≠ y → ¬ (extension inp.format s.id ∈ (expected inp x).map Expected.id ∧
        extension inp.format s.id ∈ (expected inp y).map Expected.id)) (fun x _ h => absurd rfl h)
      (hpw.imp (fun {x y} h _ hh => h hh.1 hh.2))
      (hpw.imp (fun {x y} h _ hh => h hh.2 hh.1))
    refine hne' hs ht hst ⟨?_, ?_⟩
    · rw [hexp s his hps]; simp
    · rw [hexp t hit hpt, hsame]; simp

/-! ### Example -/

/-- A photo of a Brown camera seen in two tracks, a panorama, a photo of a radial camera and a photo that is not in the
data set. -/
def exInput (imgs : List String) : Input ℚ (Multiplicative ℤ) ℕ ℕ where
  images := imgs.map String.toList
  format := "jpg".toList
  width := 8
  cam := fun k => if k = "b".toList then ⟨.brown, 1, 2, 40, 30⟩ else if k = "s".toList then ⟨.spherical, 1, 1, 20, 10⟩
    else ⟨.radial, 1, 1, 4, 3⟩
  rot := fun f => Multiplicative.ofAdd (match f with | .left => 5 | _ => 1)
  tracks := some (fun s => if s = "x".toList then some [(3, 7), (4, 8)] else if s = "p.jpg".toList then some [(3, 9)]
    else none)
  sub := fun _ v o => if Multiplicative.toAdd v = 15 then some (o + 1) else none

def exShots (names : List (String × String)) : List (Src (Multiplicative ℤ) ℕ) :=
  names.map (fun x => ⟨x.1.toList, x.2.toList, Multiplicative.ofAdd 10, x.1.length⟩)

def exRun := undistort (exInput ["x", "p.jpg", "r"]) (exShots [("x", "b"), ("p.jpg", "s"), ("r", "r"), ("y", "b")])

set_option maxRecDepth 20000 in
/-- The hypotheses of `C77_shots` hold, undistortion succeeds, and there are seven undistorted shots. -/
example : PlainCameras (exShots [("x", "b"), ("p.jpg", "s"), ("r", "r"), ("y", "b")]) ∧
    ((exShots [("x", "b"), ("p.jpg", "s"), ("r", "r"), ("y", "b")]).map Src.id).Nodup ∧
    exRun.map (fun st => st.rec'.shots.keys.map String.ofList) = some
      ["x.jpg", "p.jpg_perspective_view_front.jpg", "p.jpg_perspective_view_left.jpg",
        "p.jpg_perspective_view_back.jpg", "p.jpg_perspective_view_right.jpg", "p.jpg_perspective_view_top.jpg",
        "p.jpg_perspective_view_bottom.jpg"] ∧
    exRun.map (fun st => st.calls.map (fun c => (String.ofList c.1, c.2))) = some
      [("x.jpg", 3, 7), ("x.jpg", 4, 8), ("p.jpg_perspective_view_left.jpg", 3, 10)] ∧
    exRun.bind (fun st => st.rec'.cameras.get? "b".toList) = some ⟨3 / 2, 40, 30⟩ := by
  refine ⟨?_, ?_, ?_, ?_, ?_⟩
  · have h : ∀ s ∈ exShots [("x", "b"), ("p.jpg", "s"), ("r", "r"), ("y", "b")], s.camera ≠ panoCamera ∧ ∀ f ∈ faces, s.camera ≠ faceName f := by decide +kernel
    exact fun s hs => ⟨(h s hs).1, fun f => (h s hs).2 f (by cases f <;> decide)⟩
  all_goals decide +kernel

set_option maxRecDepth 20000 in
/-- The hypotheses of `C77_clash` hold for photos `x` and `x.jpg`. -/
example : PlainCameras (exShots [("x", "b"), ("x.jpg", "b")]) ∧
    ((exShots [("x", "b"), ("x.jpg", "b")]).map Src.id).Nodup ∧
    (undistort (exInput ["x", "x.jpg"]) (exShots [("x", "b"), ("x.jpg", "b")])).isNone ∧
    (undistort (exInput ["x"]) (exShots [("x", "b"), ("x.jpg", "b")])).isSome := by
  refine ⟨?_, ?_, ?_, ?_⟩
  · have h : ∀ s ∈ exShots [("x", "b"), ("x.jpg", "b")], s.camera ≠ panoCamera ∧ ∀ f ∈ faces, s.camera ≠ faceName f := by decide +kernel
    exact fun s hs => ⟨(h s hs).1, fun f => (h s hs).2 f (by cases f <;> decide)⟩
  all_goals decide +kernel

end Verif.UndistortRec
