import Verif.Model.FeatureLoader
import Verif.Props.Features

/-!
# C74: masked features and the caches of the feature loader
-/
set_option linter.unusedSectionVars false
set_option linter.unusedSimpArgs false
namespace Verif.FeatureLoader
open Verif.Features

variable {I C W B X : Type} [DecidableEq I] [DecidableEq C]

/-! ### Specification without caches -/

/-- The features of an image, read from disk now, masked or not. -/
def now (d : Disk I C W B X) (i : I) (masked : Bool) : Option Feats :=
  (d.feats i).bind (fun f => if masked then loadMasked d.bake (d.info i) (cut f) else some (cut f))

/-- The mask of an image, from disk. -/
def nowMask (d : Disk I C W B X) (i : I) : Option (List Bool) :=
  (d.feats i).bind (fun f => loadMask d.bake (d.info i) (cut f))

/-- All data, from disk. -/
def nowAll (d : Disk I C W B X) (i : I) (masked seg : Bool) : Option Feats :=
  (now d i masked).bind (fun f => if seg then addSegmentation d.cfg f else some f)

/-- Bearings, from disk. -/
def nowBearings (d : Disk I C W B X) (q : I × Bool × C) : Option (List B) :=
  (now d q.1 q.2.1).map (fun f => f.points.map (d.bearing q.2.2))

/-- Index, from disk. -/
def nowIndex (d : Disk I C W B X) (q : I × Bool × Bool) : Option (Feats × X) :=
  (nowAll d q.1 q.2.1 q.2.2).bind (fun f => f.descriptors.bind (fun ds => (d.index ds).map (fun x => (f, x))))

/-- Words, from disk. -/
def nowWords (d : Disk I C W B X) (q : I × Bool) : Option (List W) :=
  (d.words q.1).bind (fun w => if q.2 then (nowMask d q.1).bind (fun m => pick m w) else some w)

/-- Points, colours and semantic data, from disk. -/
def nowPoints (d : Disk I C W B X) (i : I) : Option Feats :=
  (d.feats i).map (fun f => { cut f with descriptors := none, depths := none })

/-- What a call should return. -/
def answer (d : Disk I C W B X) : Op I C → Option (Res W B X)
  | .unmaskedMask i => (nowMask d i).map .mask
  | .points i => (nowPoints d i).map .feats
  | .bearings i m c => (nowBearings d (i, m, c)).map .bearings
  | .all i m g => (nowAll d i m g).map .feats
  | .index i m g => (nowIndex d (i, m, g)).map (fun q => .index q.1 q.2)
  | .words i m => (nowWords d (i, m)).map .words

/-! ### Caches -/

/-- Every entry is right and there are at most `cap`. -/
def Ok {K V : Type} (cap : ℕ) (c : Cache K V) (val : K → Option V) : Prop :=
  (∀ q ∈ c, val q.1 = some q.2) ∧ c.length ≤ cap

theorem ok_touch {K V : Type} [DecidableEq K] {cap : ℕ} {c : Cache K V} {val : K → Option V} (h : Ok cap c val)
    (k : K) (v : V) (hv : lookup c k = some v) : val k = some v ∧ Ok cap (touch c k v) val := by
  unfold lookup at hv
  obtain ⟨q, hq, rfl⟩ := Option.map_eq_some_iff.1 hv
  have hm := List.mem_of_find?_eq_some hq
  have hk : q.1 = k := by simpa using List.find?_some hq
  have hval := h.1 q hm
  rw [hk] at hval
  refine ⟨hval, ?_, ?_⟩
  · intro p hp
    unfold touch at hp
    rcases List.mem_cons.1 hp with rfl | hp
    · exact hval
    · exact h.1 p (List.mem_filter.1 hp).1
  · unfold touch
    rw [List.length_cons]
    have : (c.filter (fun q => decide (q.1 ≠ k))).length < c.length := by
      refine List.length_filter_lt_length_iff_exists.2 ⟨q, hm, ?_⟩
      simp [hk]
    have := h.2
    omega

theorem ok_put {K V : Type} {cap : ℕ} {c : Cache K V} {val : K → Option V} (h : Ok cap c val)
    (k : K) (v : V) (hv : val k = some v) : Ok cap (put cap c k v) val := by
  constructor
  · intro q hq
    have := List.mem_of_mem_take hq
    rcases List.mem_cons.1 this with rfl | hq
    · exact hv
    · exact h.1 q hq
  · unfold put
    rw [List.length_take]
    omega

theorem cached_spec {S K V : Type} [DecidableEq K] (get : S → Cache K V) (set : S → Cache K V → S) (cap : ℕ)
    (k : K) (compute : S → Option V × S) (val : K → Option V) (Inv : S → Prop)
    (hok : ∀ s, Inv s → Ok cap (get s) val) (hset : ∀ s c, Inv s → Ok cap c val → Inv (set s c))
    (hc : ∀ s, Inv s → (compute s).1 = val k ∧ Inv (compute s).2) (s : S) (hs : Inv s) :
    (cached get set cap k compute s).1 = val k ∧ Inv (cached get set cap k compute s).2 := by
  unfold cached
  cases hl : lookup (get s) k with
  | some v =>
    obtain ⟨h1, h2⟩ := ok_touch (hok s hs) k v hl
    exact ⟨h1.symm, hset s _ hs h2⟩
  | none =>
    obtain ⟨h1, h2⟩ := hc s hs
    rcases hcs : compute s with ⟨r, s'⟩
    rw [hcs] at h1 h2
    cases r with
    | none => exact ⟨h1, h2⟩
    | some v => exact ⟨h1, hset s' _ h2 (ok_put (hok s' h2) k v h1.symm)⟩

/-- All caches hold what is on disk, within their sizes. -/
structure Good (d : Disk I C W B X) (s : State I C W B X) : Prop where
  mask : Ok 1000 s.mask (nowMask d)
  points : Ok 1000 s.points (nowPoints d)
  bearings : Ok 2000 s.bearings (nowBearings d)
  unmasked : Ok 20 s.unmasked (fun i => now d i false)
  masked : Ok 200 s.masked (fun i => now d i true)
  index : Ok 200 s.index (nowIndex d)
  words : Ok 200 s.words (nowWords d)

theorem good_clear (d : Disk I C W B X) (s : State I C W B X) : Good d (clear s) := by
  constructor <;> exact ⟨by simp [clear], by simp [clear]⟩

variable (d : Disk I C W B X)

theorem unmasked_spec (i : I) (s : State I C W B X) (hs : Good d s) :
    (loadUnmasked d i s).1 = now d i false ∧ Good d (loadUnmasked d i s).2 := by
  refine cached_spec State.unmasked (fun s c => { s with unmasked := c }) 20 i _ (fun i => now d i false) (Good d) (fun s h => h.unmasked)
    (fun s c h hc => { h with unmasked := hc }) (fun s h => ⟨?_, h⟩) s hs
  unfold now noCache
  cases d.feats i <;> rfl

theorem mask_spec (i : I) (s : State I C W B X) (hs : Good d s) :
    (loadMaskC d i s).1 = nowMask d i ∧ Good d (loadMaskC d i s).2 := by
  refine cached_spec State.mask (fun s c => { s with mask := c }) 1000 i _ (nowMask d) (Good d) (fun s h => h.mask)
    (fun s c h hc => { h with mask := hc }) (fun s h => ?_) s hs
  obtain ⟨h1, h2⟩ := unmasked_spec d i s h
  rcases hr : loadUnmasked d i s with ⟨r, s'⟩
  rw [hr] at h1 h2
  simp only at h1 h2
  unfold now at h1
  unfold nowMask
  cases hf : d.feats i with
  | none => rw [hf] at h1; subst h1; exact ⟨rfl, h2⟩
  | some f => rw [hf] at h1; subst h1; exact ⟨rfl, h2⟩

theorem masked_spec (i : I) (s : State I C W B X) (hs : Good d s) :
    (loadMaskedC d i s).1 = now d i true ∧ Good d (loadMaskedC d i s).2 := by
  refine cached_spec State.masked (fun s c => { s with masked := c }) 200 i _ (fun i => now d i true) (Good d) (fun s h => h.masked)
    (fun s c h hc => { h with masked := hc }) (fun s h => ?_) s hs
  obtain ⟨h1, h2⟩ := unmasked_spec d i s h
  rcases hr : loadUnmasked d i s with ⟨r, s'⟩
  rw [hr] at h1 h2
  simp only at h1 h2
  obtain ⟨h3, h4⟩ := mask_spec d i s' h2
  rcases hr' : loadMaskC d i s' with ⟨r', s''⟩
  rw [hr'] at h3 h4
  simp only at h3 h4
  unfold now at h1 ⊢
  unfold nowMask at h3
  cases hf : d.feats i with
  | none => rw [hf] at h1; subst h1; exact ⟨rfl, h2⟩
  | some f =>
    rw [hf] at h1 h3
    subst h1
    simp only [Option.bind_some, Bool.false_eq_true, if_false, if_true, loadMasked] at h3 ⊢
    rw [hr', ← h3]
    cases r' with
    | none => exact ⟨rfl, h4⟩
    | some m => exact ⟨rfl, h4⟩

theorem either_spec (i : I) (b : Bool) (s : State I C W B X) (hs : Good d s) :
    (loadEither d i b s).1 = now d i b ∧ Good d (loadEither d i b s).2 := by
  unfold loadEither
  cases b
  · exact unmasked_spec d i s hs
  · exact masked_spec d i s hs

theorem all_spec (i : I) (b g : Bool) (s : State I C W B X) (hs : Good d s) :
    (loadAll d i b g s).1 = nowAll d i b g ∧ Good d (loadAll d i b g s).2 := by
  obtain ⟨h1, h2⟩ := either_spec d i b s hs
  unfold loadAll nowAll
  rcases hr : loadEither d i b s with ⟨r, s'⟩
  rw [hr] at h1 h2
  simp only at h1 h2
  rw [← h1]
  cases r with
  | none => exact ⟨rfl, h2⟩
  | some f => exact ⟨rfl, h2⟩

/-- One call on good caches returns what is on disk and leaves the caches good. -/
theorem exec_spec (s : State I C W B X) (hs : Good d s) (o : Op I C) :
    (exec d s o).1 = answer d o ∧ Good d (exec d s o).2 := by
  cases o with
  | unmaskedMask i =>
    obtain ⟨h1, h2⟩ := mask_spec d i s hs
    exact ⟨by unfold exec answer; simp only [h1], h2⟩
  | points i =>
    have : (loadPoints d i s).1 = nowPoints d i ∧ Good d (loadPoints d i s).2 := by
      refine cached_spec State.points (fun s c => { s with points := c }) 1000 i _ (nowPoints d) (Good d) (fun s h => h.points)
        (fun s c h hc => { h with points := hc }) (fun s h => ⟨?_, h⟩) s hs
      unfold nowPoints noCache
      cases d.feats i <;> rfl
    exact ⟨by unfold exec answer; simp only [this.1], this.2⟩
  | bearings i b c =>
    have : (loadBearings d i b c s).1 = nowBearings d (i, b, c) ∧ Good d (loadBearings d i b c s).2 := by
      refine cached_spec State.bearings (fun s c => { s with bearings := c }) 2000 (i, b, c) _ (nowBearings d) (Good d) (fun s h => h.bearings)
        (fun s c h hc => { h with bearings := hc }) (fun s h => ?_) s hs
      obtain ⟨h1, h2⟩ := either_spec d i b s h
      rcases hr : loadEither d i b s with ⟨r, s'⟩
      rw [hr] at h1 h2
      simp only at h1 h2
      unfold nowBearings
      simp only
      rw [← h1]
      cases r with
      | none => exact ⟨rfl, h2⟩
      | some f => exact ⟨rfl, h2⟩
    exact ⟨by unfold exec answer; simp only [this.1], this.2⟩
  | all i b g =>
    obtain ⟨h1, h2⟩ := all_spec d i b g s hs
    exact ⟨by unfold exec answer; simp only [h1], h2⟩
  | index i b g =>
    have : (loadIndex d i b g s).1 = nowIndex d (i, b, g) ∧ Good d (loadIndex d i b g s).2 := by
      refine cached_spec State.index (fun s c => { s with index := c }) 200 (i, b, g) _ (nowIndex d) (Good d) (fun s h => h.index)
        (fun s c h hc => { h with index := hc }) (fun s h => ?_) s hs
      obtain ⟨h1, h2⟩ := all_spec d i b g s h
      rcases hr : loadAll d i b g s with ⟨r, s'⟩
      rw [hr] at h1 h2
      simp only at h1 h2
      unfold nowIndex
      simp only
      rw [← h1]
      cases r with
      | none => exact ⟨rfl, h2⟩
      | some f => exact ⟨rfl, h2⟩
    exact ⟨by unfold exec answer; simp only [this.1], this.2⟩
  | words i b =>
    have : (loadWords d i b s).1 = nowWords d (i, b) ∧ Good d (loadWords d i b s).2 := by
      refine cached_spec State.words (fun s c => { s with words := c }) 200 (i, b) _ (nowWords d) (Good d) (fun s h => h.words)
        (fun s c h hc => { h with words := hc }) (fun s h => ?_) s hs
      unfold nowWords
      simp only
      cases hw : d.words i with
      | none => exact ⟨rfl, h⟩
      | some w =>
        cases b with
        | false => exact ⟨rfl, h⟩
        | true =>
          obtain ⟨h1, h2⟩ := mask_spec d i s h
          rcases hr : loadMaskC d i s with ⟨r, s'⟩
          rw [hr] at h1 h2
          simp only at h1 h2
          simp only [if_true, Option.bind_some]
          rw [← h1]
          cases r with
          | none => exact ⟨rfl, h2⟩
          | some m => exact ⟨rfl, h2⟩
    exact ⟨by unfold exec answer; simp only [this.1], this.2⟩

/-- C74. After `clear_cache`, whatever was cached before, every sequence of calls returns what direct
reading would return, and no cache ever exceeds its size, as long as nothing is written. -/
theorem C74_cache (s : State I C W B X) (ops : List (Op I C)) :
    (execAll d (clear s) ops).1 = ops.map (answer d) ∧
    (execAll d (clear s) ops).2.unmasked.length ≤ 20 ∧ (execAll d (clear s) ops).2.masked.length ≤ 200 ∧
    (execAll d (clear s) ops).2.index.length ≤ 200 ∧ (execAll d (clear s) ops).2.words.length ≤ 200 ∧
    (execAll d (clear s) ops).2.mask.length ≤ 1000 ∧ (execAll d (clear s) ops).2.points.length ≤ 1000 ∧
    (execAll d (clear s) ops).2.bearings.length ≤ 2000 := by
  have key : ∀ (ops : List (Op I C)) (s : State I C W B X), Good d s →
      (execAll d s ops).1 = ops.map (answer d) ∧ Good d (execAll d s ops).2 := by
    intro ops
    induction ops with
    | nil => intro s hs; exact ⟨rfl, hs⟩
    | cons o l ih =>
      intro s hs
      obtain ⟨h1, h2⟩ := exec_spec d s hs o
      obtain ⟨h3, h4⟩ := ih _ h2
      refine ⟨?_, h4⟩
      unfold execAll
      simp only [List.map_cons]
      rw [h1, h3]
  obtain ⟨h1, h2⟩ := key ops (clear s) (good_clear d s)
  exact ⟨h1, h2.unmasked.2, h2.masked.2, h2.index.2, h2.words.2, h2.mask.2, h2.points.2, h2.bearings.2⟩

/-- C74. Without `clear_cache` a file written after it was loaded is not seen: the second load returns the
old features. -/
theorem C74_stale (f f' : Feats) (hne : cut f ≠ cut f') (d : Disk I C W B X) (i : I) (hf : d.feats i = some f)
    (s : State I C W B X) (hs : Good d s) :
    let d' : Disk I C W B X := { d with feats := fun j => if j = i then some f' else d.feats j }
    (loadAll d' i false false (loadAll d i false false s).2).1 = some (cut f) ∧
    nowAll d' i false false = some (cut f') ∧ (some (cut f) : Option Feats) ≠ some (cut f') := by
  have hn : now d i false = some (cut f) := by unfold now; rw [hf]; rfl
  obtain ⟨h1, h2⟩ := unmasked_spec d i s hs
  rw [hn] at h1
  refine ⟨?_, ?_, fun h => hne (Option.some.inj h)⟩
  · -- the entry is in the cache after the first load
    have hst : (loadAll d i false false s).2 = (loadUnmasked d i s).2 := by
      unfold loadAll loadEither
      rcases hr : loadUnmasked d i s with ⟨r, s'⟩
      rw [hr] at h1
      simp only at h1
      subst h1
      simp only [Bool.false_eq_true, if_false, hr]
    have hlook : lookup (loadUnmasked d i s).2.unmasked i = some (cut f) := by
      have hl : ∀ (c : Cache I Feats) (v : Feats), lookup (touch c i v) i = some v := by
        intro c v; unfold lookup touch; simp
      have hp : ∀ (c : Cache I Feats) (v : Feats), lookup (put 20 c i v) i = some v := by
        intro c v; unfold lookup put; simp
      unfold loadUnmasked cached at h1 ⊢
      cases hc : lookup s.unmasked i with
      | some v =>
        rw [hc] at h1
        simp only at h1 ⊢
        rw [hl, h1]
      | none =>
        have hnc : noCache d i = some (cut f) := by unfold noCache; rw [hf]; rfl
        simp only [hnc]
        rw [hp]
    rw [hst]
    generalize (loadUnmasked d i s).2 = s1 at hlook ⊢
    unfold loadAll loadEither loadUnmasked cached
    simp only [Bool.false_eq_true, if_false]
    rw [hlook]
  · unfold nowAll now
    simp

/-- A data set of one image. -/
def diskEx : Disk ℕ ℕ ℕ ℚ ℕ :=
  { feats := fun i => if i = 0 then some featsEx else none
    info := fun _ => { width := 4, height := 4, orientation := 1, ignore := [7] }
    bake := true, cfg := ⟨"HAHOG", "MLDB", true, 1⟩
    words := fun _ => some [11, 12], bearing := fun c k => c * k.x, index := fun d => some d.rows.length }

/-- Calls on it: the feature with the ignored label is masked, the second call is answered from the cache. -/
example : ((execAll diskEx {} [.words 0 true, .words 0 true, .bearings 0 true 3, .words 1 true]).1.map
      (fun r => match r with | some (.words l) => some (l.map (fun w => (w : ℚ))) | some (.bearings l) => some l | _ => none)) =
    [some [12], some [12], some [-3 / 4], none] := by
  decide +kernel

end Verif.FeatureLoader
