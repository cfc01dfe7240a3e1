import Verif.Base.Dict
import Mathlib.Logic.Relation
import Mathlib.Data.List.Perm.Subperm

/-! Parent-pointer forests: shared by the two union-find models. -/
set_option linter.unusedSectionVars false
namespace Verif
variable {K : Type} [DecidableEq K]

/-- `p` is a forest in which `rep x` is the root above `x`; `d` decreases along parent pointers. -/
structure Forest (p : Dict K K) (rep : K → K) (d : K → Nat) : Prop where
  wf : p.Wf
  rep_parent : ∀ {x y}, p.get? x = some y → rep y = rep x
  root : ∀ {x}, p.get? x = some x → rep x = x
  rep_root : ∀ {x y}, p.get? x = some y → p.get? (rep x) = some (rep x)
  closed : ∀ {x y}, p.get? x = some y → ∃ z, p.get? y = some z
  desc : ∀ {x y}, p.get? x = some y → y ≠ x → d y < d x

namespace Forest
variable {p : Dict K K} {rep : K → K} {d : K → Nat}

theorem empty : Forest ([] : Dict K K) id (fun _ => 0) := by
  constructor <;> simp

theorem rep_rep (h : Forest p rep d) {x y} (hx : p.get? x = some y) : rep (rep x) = rep x :=
  h.root (h.rep_root hx)

theorem rep_desc (h : Forest p rep d) {x y} (hx : p.get? x = some y) (hne : rep x ≠ x) :
    d (rep x) < d x := by
  induction hn : d x using Nat.strongRecOn generalizing x y with
  | _ n ih =>
    have hyx : y ≠ x := by
      rintro rfl; exact hne (h.root hx)
    have hd := h.desc hx hyx
    obtain ⟨z, hz⟩ := h.closed hx
    have hr := h.rep_parent hx
    by_cases hy : rep y = y
    · rw [← hr, hy]; omega
    · have := ih (d y) (by omega) hz hy rfl
      rw [hr] at this; omega

/-- Only the values of `rep` on known elements matter. -/
theorem congr (h : Forest p rep d) {rep' : K → K}
    (hr : ∀ x y, p.get? x = some y → rep' x = rep x) : Forest p rep' d := by
  refine ⟨h.wf, ?_, ?_, ?_, h.closed, h.desc⟩
  · intro x y hx
    obtain ⟨z, hz⟩ := h.closed hx
    rw [hr x y hx, hr y z hz]; exact h.rep_parent hx
  · intro x hx; rw [hr x x hx]; exact h.root hx
  · intro x y hx; rw [hr x y hx]; exact h.rep_root hx

/-- Redirecting a node to its own root keeps the forest. -/
theorem set_rep (h : Forest p rep d) {a y} (ha : p.get? a = some y) :
    Forest (p.set a (rep a)) rep d := by
  have hrr := h.rep_root ha
  refine ⟨Dict.wf_set h.wf _ _, ?_, ?_, ?_, ?_, ?_⟩
  · intro x z hx
    rw [Dict.get?_set] at hx
    split at hx
    · rename_i hxa; subst hxa; cases hx; exact h.rep_rep ha
    · exact h.rep_parent hx
  · intro x hx
    rw [Dict.get?_set] at hx
    split at hx
    · rename_i hxa; subst hxa; simpa using hx
    · exact h.root hx
  · intro x z hx
    have hk : p.get? (rep x) = some (rep x) := by
      rw [Dict.get?_set] at hx
      split at hx
      · rename_i hxa; subst hxa; exact hrr
      · exact h.rep_root hx
    rw [Dict.get?_set]
    split
    · rename_i hra
      have := h.root hk
      rw [hra, this]
    · exact hk
  · intro x z hx
    have hk : ∃ w, p.get? z = some w := by
      rw [Dict.get?_set] at hx
      split at hx
      · cases hx; exact ⟨_, hrr⟩
      · exact h.closed hx
    obtain ⟨w, hw⟩ := hk
    rw [Dict.get?_set]
    split
    · exact ⟨_, rfl⟩
    · exact ⟨w, hw⟩
  · intro x z hx hzx
    rw [Dict.get?_set] at hx
    split at hx
    · rename_i hxa; subst hxa; cases hx; exact h.rep_desc ha hzx
    · exact h.desc hx hzx

theorem has_set_rep {a b y : K} {v : K} (ha : p.get? a = some y) :
    (∃ z, (p.set a v).get? b = some z) ↔ ∃ z, p.get? b = some z := by
  rw [Dict.get?_set]
  split
  · rename_i hab; subst hab; simp [ha]
  · rfl

theorem compress (h : Forest p rep d) {r : K} (l : List K)
    (hl : ∀ a ∈ l, (∃ y, p.get? a = some y) ∧ rep a = r) :
    Forest (l.foldl (fun p a => p.set a r) p) rep d ∧
      (l.foldl (fun p a => p.set a r) p).keys = p.keys := by
  induction l generalizing p with
  | nil => exact ⟨h, rfl⟩
  | cons a l ih =>
    obtain ⟨⟨y, ha⟩, har⟩ := hl a (by simp)
    have h' := h.set_rep ha
    rw [har] at h'
    have := ih h' (by
      intro b hb
      obtain ⟨hb1, hb2⟩ := hl b (List.mem_cons_of_mem _ hb)
      exact ⟨(has_set_rep ha).2 hb1, hb2⟩)
    refine ⟨this.1, ?_⟩
    have hk := this.2
    simp only [List.foldl_cons]
    rw [hk, Dict.keys_set, if_pos]
    rw [Dict.mem_keys_iff, ha]; rfl

/-- Hanging the root `r` under the root `t` merges the two classes. -/
theorem link (h : Forest p rep d) {r t : K} (hr : p.get? r = some r) (ht : p.get? t = some t)
    (hne : r ≠ t) :
    Forest (p.set r t) (fun x => if rep x = r then t else rep x)
      (fun x => if rep x = r then d x + d t + 1 else d x) := by
  have hrr := h.root hr
  have htt := h.root ht
  have htr : rep t ≠ r := by rw [htt]; exact Ne.symm hne
  refine ⟨Dict.wf_set h.wf _ _, ?_, ?_, ?_, ?_, ?_⟩
  · intro x y hx
    rw [Dict.get?_set] at hx
    split at hx
    · rename_i hxr; subst hxr; cases hx; simp [hrr, htt]
    · simp [h.rep_parent hx]
  · intro x hx
    rw [Dict.get?_set] at hx
    split at hx
    · rename_i hxr; subst hxr; cases hx; exact absurd rfl hne
    · rename_i hxr
      have := h.root hx
      have h2 : rep x ≠ r := by rw [this]; exact Ne.symm hxr
      simp only [h2, if_false]; exact this
  · intro x y hx
    have hk : ∃ y, p.get? x = some y := by
      rw [Dict.get?_set] at hx
      split at hx
      · rename_i hxr; subst hxr; exact ⟨_, hr⟩
      · exact ⟨_, hx⟩
    obtain ⟨y', hy'⟩ := hk
    by_cases hxr : rep x = r
    · simp only [hxr, if_true]
      rw [Dict.get?_set, if_neg hne]; exact ht
    · simp only [hxr, if_false]
      rw [Dict.get?_set, if_neg (Ne.symm hxr)]
      exact h.rep_root hy'
  · intro x y hx
    have hk : ∃ w, p.get? y = some w := by
      rw [Dict.get?_set] at hx
      split at hx
      · cases hx; exact ⟨_, ht⟩
      · exact h.closed hx
    rw [Dict.get?_set]
    split
    · exact ⟨_, rfl⟩
    · exact hk
  · intro x y hx hyx
    rw [Dict.get?_set] at hx
    split at hx
    · rename_i hxr; subst hxr; cases hx
      simp only [hrr, htr, if_true, if_false]; omega
    · have := h.desc hx hyx
      have h2 := h.rep_parent hx
      simp only [h2]
      split <;> omega

/-- Adding a new singleton. -/
theorem insert (h : Forest p rep d) {x : K} (hx : p.get? x = none) :
    Forest (p.set x x) (fun y => if y = x then x else rep y) d := by
  have hkey : ∀ {a b}, p.get? a = some b → a ≠ x := by
    rintro a b hab rfl; rw [hx] at hab; cases hab
  have hpar : ∀ {a b}, p.get? a = some b → b ≠ x := by
    intro a b hab
    obtain ⟨z, hz⟩ := h.closed hab
    exact hkey hz
  have hrep : ∀ {a b}, p.get? a = some b → rep a ≠ x := fun hab => hkey (h.rep_root hab)
  refine ⟨Dict.wf_set h.wf _ _, ?_, ?_, ?_, ?_, ?_⟩
  · intro a b hab
    rw [Dict.get?_set] at hab
    split at hab
    · rename_i hxa; subst hxa; cases hab; rfl
    · simp [hkey hab, hpar hab, h.rep_parent hab]
  · intro a ha
    rw [Dict.get?_set] at ha
    split at ha
    · rename_i hxa; simp [hxa]
    · simp [hkey ha, h.root ha]
  · intro a b hab
    rw [Dict.get?_set] at hab
    split at hab
    · rename_i hxa; subst hxa; simp
    · simp only [hkey hab, if_false]
      rw [Dict.get?_set, if_neg (Ne.symm (hrep hab))]
      exact h.rep_root hab
  · intro a b hab
    rw [Dict.get?_set] at hab
    split at hab
    · rename_i hxa; subst hxa; cases hab; exact ⟨x, by simp⟩
    · obtain ⟨z, hz⟩ := h.closed hab
      exact ⟨z, by rw [Dict.get?_set, if_neg (Ne.symm (hpar hab))]; exact hz⟩
  · intro a b hab hba
    rw [Dict.get?_set] at hab
    split at hab
    · rename_i hxa; subst hxa; cases hab; exact absurd rfl hba
    · exact h.desc hab hba

end Forest

/-! ### Connection by a list of groups -/

/-- `x` and `y` are connected through the groups: the smallest equivalence that
identifies any two members of one group. -/
def Linked (groups : List (List K)) : K → K → Prop :=
  Relation.EqvGen fun a b => ∃ g ∈ groups, a ∈ g ∧ b ∈ g

namespace Linked
variable {groups : List (List K)}

theorem refl (x : K) : Linked groups x x := Relation.EqvGen.refl x
theorem symm {x y : K} (h : Linked groups x y) : Linked groups y x := Relation.EqvGen.symm _ _ h
theorem trans {x y z : K} (h : Linked groups x y) (h' : Linked groups y z) : Linked groups x z :=
  Relation.EqvGen.trans _ _ _ h h'
theorem of_mem {g : List K} (hg : g ∈ groups) {x y : K} (hx : x ∈ g) (hy : y ∈ g) :
    Linked groups x y := Relation.EqvGen.rel _ _ ⟨g, hg, hx, hy⟩

theorem mono {g' : List (List K)} (hs : ∀ g ∈ groups, g ∈ g') {x y : K} (h : Linked groups x y) :
    Linked g' x y := by
  induction h with
  | rel _ _ h => obtain ⟨g, hg, hx, hy⟩ := h; exact of_mem (hs g hg) hx hy
  | refl => exact refl _
  | symm _ _ _ ih => exact ih.symm
  | trans _ _ _ _ _ ih1 ih2 => exact ih1.trans ih2

/-- Any function constant on groups is constant on linked elements. -/
theorem eq_of {V : Type} (f : K → V) (hf : ∀ g ∈ groups, ∀ x ∈ g, ∀ y ∈ g, f x = f y) {x y : K}
    (h : Linked groups x y) : f x = f y := by
  induction h with
  | rel _ _ h => obtain ⟨g, hg, hx, hy⟩ := h; exact hf g hg _ hx _ hy
  | refl => rfl
  | symm _ _ _ ih => exact ih.symm
  | trans _ _ _ _ _ ih1 ih2 => exact ih1.trans ih2

end Linked

/-- The forest represents the partition generated by the groups on its keys. -/
structure Rep (p : Dict K K) (groups : List (List K)) (rep : K → K) : Prop where
  mem : ∀ g ∈ groups, ∀ x ∈ g, ∃ y, p.get? x = some y
  sound : ∀ {x y a b}, p.get? x = some a → p.get? y = some b → rep x = rep y → Linked groups x y
  complete : ∀ {x y}, Linked groups x y → rep x = rep y

end Verif
