import Verif.Lemmas.UnionFindPy
import Mathlib.Data.List.Induction

/-!
# C09: the Python union-find represents exactly the union history

Specification: `Linked groups` (Lemmas/Forest.lean) is the smallest equivalence relation
identifying any two members of one group; the groups are the argument lists of the
`union` calls of the history.
-/
set_option linter.unusedSectionVars false
namespace Verif.UFPy
variable {K : Type} [DecidableEq K]

/-- Argument lists of the `union` calls of a history. -/
def unions (ops : List (Op K)) : List (List K) :=
  ops.filterMap fun | .get _ => none | .union objs => some objs

/-- Items mentioned by a history. -/
def mentioned (ops : List (Op K)) : List K :=
  ops.flatMap fun | .get x => [x] | .union objs => objs

/-- Only calls with at least one argument to `union`. -/
def ValidOps (ops : List (Op K)) : Prop := ∀ objs, Op.union objs ∈ ops → objs ≠ []

theorem run_snoc (lt : K → K → Bool) (ops : List (Op K)) (op : Op K) :
    run lt (ops ++ [op]) = (run lt ops).bind (step lt · op) := by simp [run]

theorem Linked_congr {a b : List (List K)} (h : ∀ g, g ∈ a ↔ g ∈ b) (x y : K) :
    Linked a x y ↔ Linked b x y :=
  ⟨fun hx => hx.mono fun g hg => (h g).1 hg, fun hx => hx.mono fun g hg => (h g).2 hg⟩

theorem inv_run (lt : K → K → Bool) (ops : List (Op K)) (hv : ValidOps ops) :
    ∃ u rep d, run lt ops = some u ∧ Inv u (unions ops).reverse rep d ∧
      ∀ x, x ∈ u.parents.keys ↔ x ∈ mentioned ops := by
  induction ops using List.reverseRecOn with
  | nil => exact ⟨empty, id, fun _ => 0, rfl, inv_empty, by simp [empty, mentioned]⟩
  | append_singleton ops op ih =>
    obtain ⟨u, rep, d, h1, h2, h3⟩ := ih fun objs h => hv objs (by simp [h])
    rw [run_snoc, h1]
    cases op with
    | get x =>
      obtain ⟨u', rep', g1, g2, g3, _⟩ := find_spec h2 x
      refine ⟨u', rep', d, by simp [step, g1], by simpa [unions] using g2, ?_⟩
      intro y
      rw [g3, h3]; simp [mentioned, or_comm]
    | union objs =>
      obtain ⟨u', rep', d', g1, g2, g3⟩ := union_spec h2 lt objs (hv objs (by simp))
      refine ⟨u', rep', d', by simp [step, g1], by simpa [unions] using g2, ?_⟩
      intro y
      rw [g3, h3]; simp [mentioned, or_comm]

/-- No call of a valid history raises or loops forever; a `union()` without argument raises. -/
theorem C09_terminates (lt : K → K → Bool) (ops : List (Op K)) (hv : ValidOps ops) :
    (∃ u, run lt ops = some u ∧ (∀ x, ∃ q, u.find x = some q) ∧
      (∀ objs, (u.union lt objs).isSome ↔ objs ≠ [])) := by
  obtain ⟨u, rep, d, h1, h2, _⟩ := inv_run lt ops hv
  refine ⟨u, h1, ?_, ?_⟩
  · intro x
    obtain ⟨u', rep', g1, _⟩ := find_spec h2 x
    exact ⟨_, g1⟩
  · intro objs
    constructor
    · rintro h rfl
      simp [union, findAll, heaviest] at h
    · intro hne
      obtain ⟨u', _, _, g1, _⟩ := union_spec h2 lt objs hne
      simp [g1]

/-- Two lookups give the same root iff the items are connected by the unions made so far. The
lookups inside the history (with their path compression) have no influence. -/
theorem C09_partition (lt : K → K → Bool) (ops : List (Op K)) (hv : ValidOps ops) (x y : K)
    {u u1 u2 : UFPy K} {rx ry : K} (hu : run lt ops = some u)
    (hx : u.find x = some (u1, rx)) (hy : u1.find y = some (u2, ry)) :
    rx = ry ↔ Linked (unions ops) x y := by
  obtain ⟨u', rep, d, h1, h2, _⟩ := inv_run lt ops hv
  rw [hu] at h1; cases h1
  obtain ⟨v1, rep1, g1, g2, g3, g4, _⟩ := find_spec h2 x
  rw [hx] at g1; cases g1
  obtain ⟨v2, rep2, k1, k2, k3, k4, _⟩ := find_spec g2 y
  rw [hy] at k1; cases k1
  have hxk : x ∈ u1.parents.keys := (g3 x).2 (.inl rfl)
  have hrx : rep2 x = rep1 x := k4 x hxk
  rw [← Linked_congr (a := (unions ops).reverse) (by simp) x y, ← hrx]
  exact ⟨k2.sound ((k3 x).2 (.inr hxk)) ((k3 y).2 (.inl rfl)), k2.complete⟩

/-- A lookup returns a member of the set it names. -/
theorem C09_root_member (lt : K → K → Bool) (ops : List (Op K)) (hv : ValidOps ops) (x : K)
    {u u1 : UFPy K} {r : K} (hu : run lt ops = some u) (hx : u.find x = some (u1, r)) :
    Linked (unions ops) x r := by
  obtain ⟨u', rep, d, h1, h2, _⟩ := inv_run lt ops hv
  rw [hu] at h1; cases h1
  obtain ⟨v1, rep1, g1, g2, g3, _⟩ := find_spec h2 x
  rw [hx] at g1; cases g1
  have hxk : x ∈ u1.parents.keys := (g3 x).2 (.inl rfl)
  obtain ⟨y, hy⟩ := exists_of_mem hxk
  have hr := g2.forest.rep_root hy
  rw [← Linked_congr (a := (unions ops).reverse) (by simp)]
  exact g2.sound hxk (mem_of_exists hr) (g2.forest.root hr).symm

/-- The name of a set does not change while no union is made: looking up `x`, then any other
items, then `x` again gives the same root. -/
theorem C09_root_stable (lt : K → K → Bool) (ops : List (Op K)) (hv : ValidOps ops) (x : K)
    (ys : List K) {u u1 u2 u3 : UFPy K} {r r' : K} {rs : List K} (hu : run lt ops = some u)
    (hx : u.find x = some (u1, r)) (hys : u1.findAll ys = some (u2, rs))
    (hx' : u2.find x = some (u3, r')) : r' = r := by
  obtain ⟨u', rep, d, h1, h2, _⟩ := inv_run lt ops hv
  rw [hu] at h1; cases h1
  obtain ⟨v1, rep1, g1, g2, g3, _⟩ := find_spec h2 x
  rw [hx] at g1; cases g1
  obtain ⟨v2, rep2, k1, k2, k3, k4⟩ := findAll_spec g2 ys
  rw [hys] at k1; cases k1
  obtain ⟨v3, rep3, l1, _, _, l4, _⟩ := find_spec k2 x
  rw [hx'] at l1; cases l1
  have hxk : x ∈ u1.parents.keys := (g3 x).2 (.inl rfl)
  rw [l4 x ((k3 x).2 (.inr hxk)), k4 x hxk]

/-- Iteration lists exactly the items ever looked up or unioned, each once. -/
theorem C09_items (lt : K → K → Bool) (ops : List (Op K)) (hv : ValidOps ops) {u : UFPy K}
    (hu : run lt ops = some u) :
    u.items.Nodup ∧ ∀ x, x ∈ u.items ↔ x ∈ mentioned ops := by
  obtain ⟨u', rep, d, h1, h2, h3⟩ := inv_run lt ops hv
  rw [hu] at h1; cases h1
  exact ⟨h2.forest.wf, h3⟩

/-- A history that meets the hypotheses: chained and n-ary unions with a lookup in between. -/
def sampleOps : List (Op Nat) :=
  [.union [1, 2], .union [3, 4], .get 2, .union [2, 4, 4], .union [5, 6], .get 9]

example : ValidOps sampleOps := by
  intro objs h; simp [sampleOps] at h; rcases h with h | h | h | h <;> simp [h]

example : ((run (fun a b => decide (a < b)) sampleOps).bind fun u => (u.find 1).bind fun a =>
      (a.1.find 3).map fun b => (a.2, b.2)) = some (4, 4) ∧
    ((run (fun a b => decide (a < b)) sampleOps).bind fun u => (u.find 1).bind fun a =>
      (a.1.find 6).map fun b => (a.2, b.2)) = some (4, 6) := by decide

end Verif.UFPy
