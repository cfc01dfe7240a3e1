import Verif.Base.Dict

/-! Grouping a list by a key (`defaultdict(list)` / `map[key].push_back(x)`). -/
set_option linter.unusedSectionVars false
namespace Verif.Dict
variable {K V : Type} [DecidableEq K]

/-- `m[k].append(x)` on a dictionary of lists with default `[]`. -/
def push (m : Dict K (List V)) (k : K) (x : V) : Dict K (List V) :=
  m.set k ((m.get? k).getD [] ++ [x])

/-- Group the elements of a list by `f`. -/
def groupBy (f : V → K) (l : List V) : Dict K (List V) := l.foldl (fun m x => push m (f x) x) []

theorem get?_push (m : Dict K (List V)) (k k' : K) (x : V) :
    (push m k x).get? k' = if k = k' then some ((m.get? k').getD [] ++ [x]) else m.get? k' := by
  unfold push; rw [get?_set]; by_cases h : k = k' <;> simp [h]

theorem wf_push {m : Dict K (List V)} (h : m.Wf) (k : K) (x : V) : (push m k x).Wf := wf_set h _ _

theorem wf_foldl_push (f : V → K) (l : List V) {m : Dict K (List V)} (h : m.Wf) :
    (l.foldl (fun m x => push m (f x) x) m).Wf := by
  induction l generalizing m with
  | nil => exact h
  | cons a l ih => exact ih (wf_push h _ _)

theorem get?_foldl_push (f : V → K) (l : List V) (m : Dict K (List V)) (k : K) :
    (l.foldl (fun m x => push m (f x) x) m).get? k =
      if l.filter (fun x => f x = k) = [] then m.get? k
      else some ((m.get? k).getD [] ++ l.filter (fun x => f x = k)) := by
  induction l generalizing m with
  | nil => simp
  | cons a l ih =>
    rw [List.foldl_cons, ih, get?_push]
    by_cases h : f a = k
    · simp only [h, if_true, decide_true, List.filter_cons_of_pos, reduceCtorEq, if_false,
        Option.getD_some]
      split
      · rename_i hf; simp [hf]
      · simp
    · simp [h]

theorem wf_groupBy (f : V → K) (l : List V) : (groupBy f l).Wf := wf_foldl_push f l wf_nil

/-- The group of `k`: all elements with that key, in order; absent if there is none. -/
theorem get?_groupBy (f : V → K) (l : List V) (k : K) :
    (groupBy f l).get? k =
      if l.filter (fun x => f x = k) = [] then none else some (l.filter (fun x => f x = k)) := by
  unfold groupBy; rw [get?_foldl_push]; simp

theorem mem_vals_groupBy (f : V → K) (l : List V) (g : List V) :
    g ∈ (groupBy f l).vals ↔ ∃ x ∈ l, g = l.filter (fun y => f y = f x) := by
  unfold vals
  rw [List.mem_map]
  constructor
  · rintro ⟨⟨k, g'⟩, hm, rfl⟩
    have := get?_of_mem (wf_groupBy f l) hm
    rw [get?_groupBy] at this
    split at this
    · cases this
    · rename_i hne
      cases this
      obtain ⟨x, hx⟩ := List.exists_mem_of_ne_nil _ hne
      rw [List.mem_filter] at hx
      have hk : f x = k := by simpa using hx.2
      subst hk
      exact ⟨x, hx.1, rfl⟩
  · rintro ⟨x, hx, rfl⟩
    refine ⟨(f x, l.filter (fun y => f y = f x)), ?_, rfl⟩
    rw [mem_iff_get? (wf_groupBy f l), get?_groupBy, if_neg]
    intro h
    rw [List.filter_eq_nil_iff] at h
    exact h x hx (by simp)

theorem mem_keys_groupBy (f : V → K) (l : List V) (k : K) :
    k ∈ (groupBy f l).keys ↔ ∃ x ∈ l, f x = k := by
  rw [mem_keys_iff, get?_groupBy]
  split
  · rename_i h
    rw [List.filter_eq_nil_iff] at h
    simp only [Option.isSome_none, Bool.false_eq_true, false_iff]
    rintro ⟨x, hx, hf⟩; exact h x hx (by simp [hf])
  · rename_i h
    obtain ⟨x, hx⟩ := List.exists_mem_of_ne_nil _ h
    rw [List.mem_filter] at hx
    simp only [Option.isSome_some, true_iff]
    exact ⟨x, hx.1, by simpa using hx.2⟩

theorem perm_flatten_push (m : Dict K (List V)) (k : K) (x : V) :
    (push m k x).vals.flatten.Perm (m.vals.flatten ++ [x]) := by
  unfold push
  induction m with
  | nil => simp [set, vals, get?]
  | cons p t ih =>
    obtain ⟨a, b⟩ := p
    by_cases h : a = k
    · simp only [set, h, if_true, vals, List.map_cons, List.flatten_cons, get?, Option.getD_some,
        List.append_assoc]
      exact List.Perm.append_left _ (List.perm_append_comm)
    · simp only [set, h, if_false, vals, List.map_cons, List.flatten_cons, get?,
        List.append_assoc] at ih ⊢
      exact List.Perm.append_left _ ih

/-- The groups together hold every element once. -/
theorem perm_flatten_groupBy (f : V → K) (l : List V) :
    (groupBy f l).vals.flatten.Perm l := by
  unfold groupBy
  suffices h : ∀ m : Dict K (List V),
      (l.foldl (fun m x => push m (f x) x) m).vals.flatten.Perm (m.vals.flatten ++ l) by
    simpa [vals] using h []
  induction l with
  | nil => intro m; simp
  | cons a l ih =>
    intro m
    rw [List.foldl_cons]
    refine (ih _).trans ?_
    refine ((perm_flatten_push m (f a) a).append_right l).trans ?_
    simp

end Verif.Dict
