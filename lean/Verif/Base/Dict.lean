/-!
# Insertion-ordered dictionaries

A tiny association-list library used to model Python `dict` and C++
`std::unordered_map` / `std::map`.  It carries no modelling content of its own.
`set` overwrites in place or appends (Python's insertion order), `insertNew`
is C++ `emplace` / `insert` (keeps an existing value), `erase` removes a key.
-/
set_option linter.unusedSectionVars false

namespace Verif

/-- A dictionary: list of key/value pairs; well formed when keys are distinct. -/
abbrev Dict (K V : Type) := List (K × V)

namespace Dict
variable {K V W : Type} [DecidableEq K]

/-- `d.get(k)` / `find(k)`. -/
def get? : Dict K V → K → Option V
  | [], _ => none
  | (a, b) :: t, k => if a = k then some b else get? t k

/-- `k in d` / `count(k) > 0`. -/
def has (m : Dict K V) (k : K) : Bool := (get? m k).isSome

/-- `d[k] = v`. -/
def set : Dict K V → K → V → Dict K V
  | [], k, v => [(k, v)]
  | (a, b) :: t, k, v => if a = k then (a, v) :: t else (a, b) :: set t k v

/-- C++ `emplace(k, v)`: keeps an existing entry. -/
def insertNew (m : Dict K V) (k : K) (v : V) : Dict K V :=
  if has m k then m else set m k v

/-- `erase(k)` / `del d[k]` (no effect if absent). -/
def erase : Dict K V → K → Dict K V
  | [], _ => []
  | (a, b) :: t, k => if a = k then erase t k else (a, b) :: erase t k

/-- `d.keys()`. -/
def keys (m : Dict K V) : List K := m.map Prod.fst

/-- `d.values()`. -/
def vals (m : Dict K V) : List V := m.map Prod.snd

/-- Keys are pairwise distinct (the representation invariant of a dictionary). -/
def Wf (m : Dict K V) : Prop := (keys m).Nodup

@[simp] theorem get?_nil (k : K) : get? ([] : Dict K V) k = none := rfl
@[simp] theorem keys_nil : keys ([] : Dict K V) = [] := rfl
@[simp] theorem wf_nil : Wf ([] : Dict K V) := List.nodup_nil
@[simp] theorem keys_cons (p : K × V) (m : Dict K V) : keys (p :: m) = p.1 :: keys m := rfl

theorem get?_set (m : Dict K V) (k k' : K) (v : V) :
    get? (set m k v) k' = if k = k' then some v else get? m k' := by
  induction m with
  | nil => simp [set, get?]
  | cons p t ih =>
    obtain ⟨a, b⟩ := p
    by_cases h : a = k
    · subst h; by_cases h2 : a = k' <;> simp [set, get?, h2]
    · by_cases h2 : a = k'
      · subst h2; simp [set, get?, h, Ne.symm h]
      · simp [set, get?, h, h2, ih]

@[simp] theorem get?_set_self (m : Dict K V) (k : K) (v : V) : get? (set m k v) k = some v := by
  simp [get?_set]

theorem get?_set_ne (m : Dict K V) {k k' : K} (v : V) (h : k ≠ k') :
    get? (set m k v) k' = get? m k' := by
  simp [get?_set, h]

theorem get?_erase (m : Dict K V) (k k' : K) :
    get? (erase m k) k' = if k = k' then none else get? m k' := by
  induction m with
  | nil => simp [erase]
  | cons p t ih =>
    obtain ⟨a, b⟩ := p
    by_cases h : a = k
    · subst h
      rw [show erase ((a, b) :: t) a = erase t a by simp [erase], ih]
      by_cases h2 : a = k' <;> simp [get?, h2]
    · by_cases h2 : a = k'
      · subst h2; simp [erase, get?, h, Ne.symm h]
      · simp [erase, get?, h, h2, ih]

theorem mem_keys_iff (m : Dict K V) (k : K) : k ∈ keys m ↔ (get? m k).isSome := by
  induction m with
  | nil => simp
  | cons p t ih =>
    obtain ⟨a, b⟩ := p
    by_cases h : a = k
    · simp [get?, h]
    · simp [get?, h, Ne.symm h, ih]

theorem has_iff_mem (m : Dict K V) (k : K) : has m k = true ↔ k ∈ keys m := by
  simp [has, mem_keys_iff]

theorem get?_eq_none_iff (m : Dict K V) (k : K) : get? m k = none ↔ k ∉ keys m := by
  rw [mem_keys_iff]; cases get? m k <;> simp

theorem mem_of_get? {m : Dict K V} {k : K} {v : V} (h : get? m k = some v) : (k, v) ∈ m := by
  induction m with
  | nil => simp at h
  | cons p t ih =>
    obtain ⟨a, b⟩ := p
    by_cases hk : a = k
    · simp [get?, hk] at h; simp [hk, h]
    · simp [get?, hk] at h; exact List.mem_cons_of_mem _ (ih h)

theorem get?_of_mem {m : Dict K V} (hm : Wf m) {k : K} {v : V} (h : (k, v) ∈ m) :
    get? m k = some v := by
  induction m with
  | nil => simp at h
  | cons p t ih =>
    obtain ⟨a, b⟩ := p
    simp only [Wf, keys_cons, List.nodup_cons] at hm
    rcases List.mem_cons.1 h with h | h
    · cases h; simp [get?]
    · have : a ≠ k := by
        intro e; subst e; exact hm.1 (List.mem_map.2 ⟨_, h, rfl⟩)
      simp [get?, this, ih hm.2 h]

theorem mem_iff_get? {m : Dict K V} (hm : Wf m) {k : K} {v : V} :
    (k, v) ∈ m ↔ get? m k = some v := ⟨get?_of_mem hm, mem_of_get?⟩

theorem mem_set {m : Dict K V} {k : K} {v : V} {e : K} {w : V} (h : (e, w) ∈ set m k v) :
    (e, w) ∈ m ∨ (e = k ∧ w = v) := by
  induction m with
  | nil => simpa [set] using h
  | cons p t ih =>
    obtain ⟨a, b⟩ := p
    by_cases hk : a = k
    · simp only [set, hk, if_true, List.mem_cons, Prod.mk.injEq] at h ⊢
      rcases h with h | h
      · exact Or.inr h
      · exact Or.inl (Or.inr h)
    · simp only [set, hk, if_false, List.mem_cons, Prod.mk.injEq] at h ⊢
      rcases h with h | h
      · exact Or.inl (Or.inl h)
      · exact (ih h).imp Or.inr id

theorem keys_set (m : Dict K V) (k : K) (v : V) :
    keys (set m k v) = if k ∈ keys m then keys m else keys m ++ [k] := by
  induction m with
  | nil => simp [set]
  | cons p t ih =>
    obtain ⟨a, b⟩ := p
    by_cases h : a = k
    · simp [set, h]
    · by_cases h2 : k ∈ keys t
      · simp [set, h, ih, h2]
      · simp [set, h, ih, h2, Ne.symm h]

theorem mem_keys_set (m : Dict K V) (k k' : K) (v : V) :
    k' ∈ keys (set m k v) ↔ k' = k ∨ k' ∈ keys m := by
  rw [mem_keys_iff, get?_set, mem_keys_iff]
  by_cases h : k = k'
  · simp [h]
  · simp [h, Ne.symm h]

theorem mem_keys_erase (m : Dict K V) (k k' : K) :
    k' ∈ keys (erase m k) ↔ k' ≠ k ∧ k' ∈ keys m := by
  rw [mem_keys_iff, get?_erase, mem_keys_iff]
  by_cases h : k = k'
  · simp [h]
  · simp [h, Ne.symm h]

theorem wf_set {m : Dict K V} (hm : Wf m) (k : K) (v : V) : Wf (set m k v) := by
  unfold Wf at *
  rw [keys_set]
  split
  · exact hm
  · rename_i h
    rw [List.nodup_append]
    refine ⟨hm, by simp, ?_⟩
    intro a ha b hb
    simp at hb; subst hb
    intro e; subst e; exact h ha

theorem erase_sublist (m : Dict K V) (k : K) : (erase m k).Sublist m := by
  induction m with
  | nil => simp [erase]
  | cons p t ih =>
    obtain ⟨a, b⟩ := p
    by_cases h : a = k
    · simp only [erase, h, if_true]; exact ih.cons _
    · simp only [erase, h, if_false]; exact ih.cons_cons _

theorem wf_erase {m : Dict K V} (hm : Wf m) (k : K) : Wf (erase m k) :=
  hm.sublist ((erase_sublist m k).map _)

theorem wf_insertNew {m : Dict K V} (hm : Wf m) (k : K) (v : V) : Wf (insertNew m k v) := by
  unfold insertNew; split
  · exact hm
  · exact wf_set hm k v

theorem get?_insertNew (m : Dict K V) (k k' : K) (v : V) :
    get? (insertNew m k v) k' = if k = k' then (if has m k then get? m k else some v)
      else get? m k' := by
  unfold insertNew has
  by_cases h : (get? m k).isSome <;> by_cases h2 : k = k' <;> simp_all [get?_set]

theorem get?_isSome_of_mem {m : Dict K V} {k : K} {v : V} (h : (k, v) ∈ m) :
    (get? m k).isSome := (mem_keys_iff m k).1 (List.mem_map.2 ⟨_, h, rfl⟩)

/-- `{k: v for k, v in d.items() if p(k, v)}` -/
def filterKV (p : K → V → Bool) (m : Dict K V) : Dict K V := List.filter (fun q => p q.1 q.2) m

theorem wf_filterKV {m : Dict K V} (hm : Wf m) (p : K → V → Bool) : Wf (filterKV p m) :=
  hm.sublist (List.filter_sublist.map _)

theorem get?_filterKV {m : Dict K V} (hm : Wf m) (p : K → V → Bool) (k : K) :
    get? (filterKV p m) k = (get? m k).filter (p k) := by
  apply Option.ext
  intro v
  rw [← mem_iff_get? (wf_filterKV hm p), Option.filter_eq_some_iff, ← mem_iff_get? hm]
  simp [filterKV]

/-- Two dictionaries with the same lookups have the same length. -/
theorem length_eq_keys (m : Dict K V) : (keys m).length = m.length := by simp [keys]

/-- Map over values. -/
def mapVals (f : K → V → W) (m : Dict K V) : Dict K W := List.map (fun q => (q.1, f q.1 q.2)) m

@[simp] theorem keys_mapVals (f : K → V → W) (m : Dict K V) : keys (mapVals f m) = keys m := by
  simp [keys, mapVals, Function.comp_def]

theorem get?_mapVals (f : K → V → W) (m : Dict K V) (k : K) :
    get? (mapVals f m) k = (get? m k).map (f k) := by
  induction m with
  | nil => simp [mapVals]
  | cons p t ih =>
    obtain ⟨a, b⟩ := p
    by_cases h : a = k
    · subst h; simp [mapVals, get?]
    · simp only [mapVals, List.map_cons, get?, h, if_false] at ih ⊢; exact ih

end Dict
end Verif
