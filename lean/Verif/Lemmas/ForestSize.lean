import Verif.Lemmas.Forest
import Mathlib.Data.List.Count
import Mathlib.Tactic.Ring

/-! Sizes of the classes of a parent-pointer forest. -/
set_option linter.unusedSectionVars false
namespace Verif
variable {K : Type} [DecidableEq K]

/-- Number of listed elements with representative `r`. -/
def cnt (l : List K) (rep : K → K) (r : K) : Nat := l.countP (fun x => rep x = r)

theorem cnt_link (l : List K) (rep : K → K) {r t : K} (hne : r ≠ t) :
    cnt l (fun x => if rep x = r then t else rep x) t = cnt l rep r + cnt l rep t := by
  unfold cnt
  induction l with
  | nil => rfl
  | cons a l ih =>
    simp only [List.countP_cons, ih]
    by_cases h1 : rep a = r
    · have h2 : rep a ≠ t := by rw [h1]; exact hne
      simp [h1, hne]; omega
    · by_cases h2 : rep a = t
      · simp [h2, hne.symm]; omega
      · simp [h1, h2]

theorem cnt_link_other (l : List K) (rep : K → K) {r t s : K} (hst : s ≠ t) (hsr : s ≠ r) :
    cnt l (fun x => if rep x = r then t else rep x) s = cnt l rep s := by
  unfold cnt
  apply List.countP_congr
  intro x _
  by_cases h1 : rep x = r
  · simp [h1, hst.symm, hsr.symm]
  · simp [h1]

theorem cnt_congr (l : List K) {rep rep' : K → K} (h : ∀ x ∈ l, rep' x = rep x) (s : K) :
    cnt l rep' s = cnt l rep s := by
  unfold cnt
  apply List.countP_congr
  intro x hx; rw [h x hx]

/-- The number of elements of a class is at most the length of any list containing the class. -/
theorem cnt_le_length {l : List K} (hl : l.Nodup) (rep : K → K) (r : K) (cls : List K)
    (h : ∀ y ∈ l, rep y = r → y ∈ cls) : cnt l rep r ≤ cls.length := by
  unfold cnt
  rw [List.countP_eq_length_filter]
  refine (List.Nodup.subperm (l₁ := l.filter _) (List.Pairwise.filter _ hl) ?_).length_le
  intro y hy
  rw [List.mem_filter] at hy
  exact h y hy.1 (by simpa using hy.2)

theorem cnt_eq_length {l : List K} (hl : l.Nodup) (rep : K → K) (r : K) (cls : List K)
    (hn : cls.Nodup) (h : ∀ y, y ∈ cls ↔ y ∈ l ∧ rep y = r) : cnt l rep r = cls.length := by
  unfold cnt
  rw [List.countP_eq_length_filter]
  refine List.Perm.length_eq ((List.perm_ext_iff_of_nodup (hl.filter _) hn).2 ?_)
  intro y
  rw [List.mem_filter, h]; simp

namespace Forest
variable {p : Dict K K} {rep : K → K} {d : K → Nat}

theorem mem_keys {x y : K} (h : p.get? x = some y) : x ∈ p.keys := by
  rw [Dict.mem_keys_iff, h]; rfl

theorem cnt_insert (h : Forest p rep d) {x : K} (hx : p.get? x = none) {s : K} (hs : s ≠ x) :
    cnt (p.set x x).keys (fun y => if y = x then x else rep y) s = cnt p.keys rep s := by
  have hxk : x ∉ p.keys := by rw [Dict.mem_keys_iff, hx]; simp
  rw [Dict.keys_set, if_neg hxk]
  unfold cnt
  rw [List.countP_append]
  have : p.keys.countP (fun y => (if y = x then x else rep y) = s) =
      p.keys.countP (fun y => rep y = s) := by
    apply List.countP_congr
    intro y hy
    have : y ≠ x := by rintro rfl; exact hxk hy
    simp [this]
  rw [this]
  simp [hs.symm]

theorem cnt_insert_self (h : Forest p rep d) {x : K} (hx : p.get? x = none) :
    cnt (p.set x x).keys (fun y => if y = x then x else rep y) x = 1 := by
  have hxk : x ∉ p.keys := by rw [Dict.mem_keys_iff, hx]; simp
  rw [Dict.keys_set, if_neg hxk]
  unfold cnt
  rw [List.countP_append]
  have : p.keys.countP (fun y => (if y = x then x else rep y) = x) = 0 := by
    rw [List.countP_eq_zero]
    intro y hy
    have h1 : y ≠ x := by rintro rfl; exact hxk hy
    have h2 : rep y ≠ x := by
      intro h2
      have hy' := hy
      rw [Dict.mem_keys_iff] at hy'
      obtain ⟨z, hz⟩ := Option.isSome_iff_exists.1 hy'
      exact hxk (h2 ▸ mem_keys (h.rep_root hz))
    simp [h1, h2]
  rw [this]; simp

/-- Only the values of `d` on known elements matter. -/
theorem congr_d (h : Forest p rep d) {d' : K → Nat}
    (hd : ∀ x y, p.get? x = some y → d' x = d x) : Forest p rep d' := by
  refine ⟨h.wf, h.rep_parent, h.root, h.rep_root, h.closed, ?_⟩
  intro x y hx hyx
  obtain ⟨z, hz⟩ := h.closed hx
  rw [hd x y hx, hd y z hz]; exact h.desc hx hyx

/-- The representatives are determined by the parent pointers. -/
theorem rep_unique {rep' : K → K} {d' : K → Nat} (h : Forest p rep d) (h' : Forest p rep' d')
    {x y : K} (hx : p.get? x = some y) : rep x = rep' x := by
  induction hn : d x using Nat.strongRecOn generalizing x y with
  | _ n ih =>
    by_cases hyx : y = x
    · subst hyx; rw [h.root hx, h'.root hx]
    · have hd := h.desc hx hyx
      obtain ⟨z, hz⟩ := h.closed hx
      rw [← h.rep_parent hx, ← h'.rep_parent hx]
      exact ih (d y) (by omega) hz rfl

end Forest
end Verif
