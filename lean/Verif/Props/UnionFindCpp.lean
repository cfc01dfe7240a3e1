import Verif.Lemmas.UnionFindCpp
import Mathlib.Data.List.Induction

/-!
# C10: the C++ union-find represents exactly the union history

The specification is again `Linked`: the smallest equivalence identifying the two arguments of
every `Union` call made.
-/
set_option linter.unusedSectionVars false
namespace Verif.UFCpp
variable {K : Type} [DecidableEq K]

/-- Elements allocated by a history. -/
def made (ops : List (Op K)) : List K :=
  ops.filterMap fun | .make x => some x | _ => none

/-- The pairs united by a history. -/
def unions (ops : List (Op K)) : List (List K) :=
  ops.filterMap fun | .union x y => some [x, y] | _ => none

/-- `op` may follow the history `before`. -/
def OpOk (before : List (Op K)) : Op K → Prop
  | .make x => x ∉ made before
  | .find x => x ∈ made before
  | .union x y => x ∈ made before ∧ y ∈ made before

/-- A history a program can make: allocations return new pointers, and `Find`/`Union` only get
allocated ones. (Stated on every prefix of the history.) -/
def ValidOps (ops : List (Op K)) : Prop :=
  ∀ before op after, ops = before ++ op :: after → OpOk before op

theorem run_snoc (ops : List (Op K)) (op : Op K) :
    run (ops ++ [op]) = (run ops).bind (step · op) := by simp [run]

theorem Linked_congr {a b : List (List K)} (h : ∀ g, g ∈ a ↔ g ∈ b) (x y : K) :
    Linked a x y ↔ Linked b x y :=
  ⟨fun hx => hx.mono fun g hg => (h g).1 hg, fun hx => hx.mono fun g hg => (h g).2 hg⟩

theorem inv_run (ops : List (Op K)) (hv : ValidOps ops) :
    ∃ u rep d, run ops = some u ∧ Inv u (unions ops).reverse rep d ∧
      ∀ x, x ∈ u.parent.keys ↔ x ∈ made ops := by
  induction ops using List.reverseRecOn with
  | nil => exact ⟨empty, id, fun _ => 0, rfl, inv_empty, by simp [empty, made]⟩
  | append_singleton ops op ih =>
    obtain ⟨u, rep, d, h1, h2, h3⟩ := ih (by
      intro b o a hab
      exact hv b o (a ++ [op]) (by simp [hab]))
    have hop := hv ops op [] rfl
    rw [run_snoc, h1]
    cases op with
    | make x =>
      obtain ⟨rep', g1, g2⟩ := make_spec h2 (x := x) (by rw [h3]; exact hop)
      refine ⟨_, rep', d, rfl, by simpa [unions] using g1, ?_⟩
      intro y
      rw [g2, h3]; simp [made, or_comm]
    | find x =>
      obtain ⟨u', g1, g2, g3⟩ := find_spec h2 (x := x) (by rw [h3]; exact hop)
      refine ⟨u', rep, d, by simp [step, g1], by simpa [unions] using g2, ?_⟩
      intro y
      rw [g3, h3]; simp [made]
    | union x y =>
      obtain ⟨u', rep', d', g1, g2, g3⟩ := union_spec h2 (x := x) (y := y)
        (by rw [h3]; exact hop.1) (by rw [h3]; exact hop.2)
      refine ⟨u', rep', d', by simp [step, g1], by simpa [unions] using g2, ?_⟩
      intro z
      rw [g3, h3]; simp [made]

/-- Every valid history runs to the end: no dangling pointer is followed and no `Find` recursion
is deeper than the number of elements. -/
theorem C10_terminates (ops : List (Op K)) (hv : ValidOps ops) :
    ∃ u, run ops = some u ∧ ∀ x ∈ made ops, ∃ q, u.find x = some q := by
  obtain ⟨u, rep, d, h1, h2, h3⟩ := inv_run ops hv
  refine ⟨u, h1, fun x hx => ?_⟩
  obtain ⟨u', g1, _⟩ := find_spec h2 (x := x) (by rw [h3]; exact hx)
  exact ⟨_, g1⟩

/-- Two `Find`s return the same element iff the arguments are connected by the `Union`s made. -/
theorem C10_partition (ops : List (Op K)) (hv : ValidOps ops) {x y : K}
    (hx : x ∈ made ops) (hy : y ∈ made ops) {u u1 u2 : UFCpp K} {rx ry : K}
    (hu : run ops = some u) (hfx : u.find x = some (u1, rx)) (hfy : u1.find y = some (u2, ry)) :
    rx = ry ↔ Linked (unions ops) x y := by
  obtain ⟨u', rep, d, h1, h2, h3⟩ := inv_run ops hv
  rw [hu] at h1; cases h1
  obtain ⟨v1, g1, g2, g3⟩ := find_spec h2 (x := x) (by rw [h3]; exact hx)
  rw [hfx] at g1; cases g1
  obtain ⟨v2, k1, _⟩ := find_spec g2 (x := y) (by rw [g3, h3]; exact hy)
  rw [hfy] at k1; cases k1
  rw [← Linked_congr (a := (unions ops).reverse) (by simp) x y]
  exact ⟨h2.sound (by rw [h3]; exact hx) (by rw [h3]; exact hy), h2.complete⟩

/-- `GetUnionFindClusters` always returns; its clusters are non-empty, together they hold every
given element exactly as often as it was given, two given elements are in a common cluster iff
they are connected, and the clusters come in order of increasing size. -/
theorem C10_clusters (ops : List (Op K)) (hv : ValidOps ops) (elements : List K)
    (hel : ∀ e ∈ elements, e ∈ made ops) {u : UFCpp K} (hu : run ops = some u) :
    (∃ out, Clusters u elements out) ∧
    ∀ out, Clusters u elements out →
      out.flatten.Perm elements ∧
      (∀ c ∈ out, c ≠ []) ∧
      (∀ x ∈ elements, ∀ y ∈ elements,
        (∃ c ∈ out, x ∈ c ∧ y ∈ c) ↔ Linked (unions ops) x y) ∧
      out.Pairwise (fun a b => a.length ≤ b.length) := by
  obtain ⟨u', rep, d, h1, h2, h3⟩ := inv_run ops hv
  rw [hu] at h1; cases h1
  obtain ⟨u2, g1, _, _⟩ := aggregate_spec h2 elements (fun e he => by rw [h3]; exact hel e he) []
  change aggregate u elements [] = some (u2, Dict.groupBy rep elements) at g1
  refine ⟨?_, ?_⟩
  · refine ⟨(Dict.groupBy rep elements).vals.mergeSort (fun a b => decide (a.length ≤ b.length)),
      u2, _, g1, List.mergeSort_perm _ _, ?_⟩
    have hs := List.pairwise_mergeSort (le := fun (a b : List K) => decide (a.length ≤ b.length))
      (by intro a b c; simp only [decide_eq_true_eq]; omega)
      (by intro a b; simp only [Bool.or_eq_true, decide_eq_true_eq]; omega)
      (Dict.groupBy rep elements).vals
    exact hs.imp (by intro a b h; simpa using h)
  · rintro out ⟨v, agg, ha, hperm, hsort⟩
    rw [g1] at ha; cases ha
    have hmem : ∀ c, c ∈ out ↔ ∃ x ∈ elements, c = elements.filter (fun y => rep y = rep x) := by
      intro c; rw [hperm.mem_iff, Dict.mem_vals_groupBy]
    refine ⟨?_, ?_, ?_, hsort⟩
    · exact (hperm.flatten).trans (Dict.perm_flatten_groupBy rep elements)
    · intro c hc
      obtain ⟨x, hx, rfl⟩ := (hmem c).1 hc
      intro h0
      rw [List.filter_eq_nil_iff] at h0
      exact h0 x hx (by simp)
    · intro x hx y hy
      rw [← Linked_congr (a := (unions ops).reverse) (by simp) x y]
      constructor
      · rintro ⟨c, hc, hxc, hyc⟩
        obtain ⟨z, hz, rfl⟩ := (hmem c).1 hc
        rw [List.mem_filter] at hxc hyc
        have e1 : rep x = rep z := by simpa using hxc.2
        have e2 : rep y = rep z := by simpa using hyc.2
        exact h2.sound (by rw [h3]; exact hel x hx) (by rw [h3]; exact hel y hy)
          (by rw [e1, e2])
      · intro hxy
        refine ⟨_, (hmem _).2 ⟨x, hx, rfl⟩, ?_, ?_⟩
        · rw [List.mem_filter]; exact ⟨hx, by simp⟩
        · rw [List.mem_filter]; exact ⟨hy, by simp [h2.complete hxy]⟩

/-- A valid history with two merges. -/
def sampleOps : List (Op Nat) :=
  [.make 1, .make 2, .make 3, .make 4, .union 1 2, .find 2, .union 3 2]

/-- Executable check of `ValidOps`, used for the example below. -/
def validB : List K → List (Op K) → Bool
  | _, [] => true
  | m, .make x :: l => !decide (x ∈ m) && validB (m ++ [x]) l
  | m, .find x :: l => decide (x ∈ m) && validB m l
  | m, .union x y :: l => decide (x ∈ m) && decide (y ∈ m) && validB m l

theorem validB_sound (pre ops : List (Op K)) (h : validB (made pre) ops = true)
    (b : List (Op K)) (op : Op K) (a : List (Op K)) (hab : ops = b ++ op :: a) :
    OpOk (pre ++ b) op := by
  induction b generalizing pre ops with
  | nil =>
    subst hab
    cases op <;> simp [validB, OpOk] at h ⊢
    · exact h.1
    · exact h.1
    · exact h.1
  | cons c b ih =>
    subst hab
    have : validB (made (pre ++ [c])) (b ++ op :: a) = true := by
      cases c with
      | make x => simp [validB] at h; simpa [made] using h.2
      | find x => simp [validB] at h; simpa [made] using h.2
      | union x y => simp [validB] at h; simpa [made] using h.2
    have := ih (pre ++ [c]) _ this rfl
    simpa using this

example : ValidOps sampleOps := fun b op a h => by
  simpa using validB_sound [] sampleOps (by decide) b op a h

example : ((run sampleOps).bind fun u => (aggregate u [1, 2, 3, 4] []).map fun q => q.2.vals) =
    some [[1, 2, 3], [4]] := by decide

end Verif.UFCpp
