import Verif.Props.UnionFindCpp
import Verif.Props.UnionFindPy
import Verif.Lemmas.ForestSize

/-!
# C61: union-find trees stay shallow

`findAux n` (C++) and `walk n` (Python) are the recursive `Find` and the `while` loop of
`__getitem__` cut off after `n` steps up the tree; `findAux n u x ≠ none` therefore says that
a find of `x` follows at most `n` parent pointers before it reaches the root.
-/
set_option linter.unusedSectionVars false
namespace Verif.UFCpp
variable {K : Type} [DecidableEq K]

/-- Rank invariant: `d` bounds the depth, the rank of a root bounds the depths below it, and
a root of rank `k` has at least `2 ^ k` elements below it. -/
structure Deep (u : UFCpp K) (rep : K → K) (d : K → Nat) : Prop where
  root0 : ∀ {x}, u.parent.get? x = some x → d x = 0
  rankRoot : ∀ {x y}, u.parent.get? x = some y → d x ≤ (u.rank.get? (rep x)).getD 0
  size : ∀ {x y}, u.parent.get? x = some y →
    2 ^ (u.rank.get? (rep x)).getD 0 ≤ cnt u.parent.keys rep (rep x)

theorem Deep.of_same {u u' : UFCpp K} {rep : K → K} {d : K → Nat} (hd : Deep u rep d)
    (hf : Forest u.parent rep d) (hf' : Forest u'.parent rep d)
    (hk : u'.parent.keys = u.parent.keys) (hr : u'.rank = u.rank) : Deep u' rep d := by
  have hold : ∀ {x y}, u'.parent.get? x = some y → ∃ z, u.parent.get? x = some z := by
    intro x y hx
    exact exists_of_mem (hk ▸ mem_of_exists hx)
  refine ⟨?_, ?_, ?_⟩
  · intro x hx
    obtain ⟨z, hz⟩ := hold hx
    have := hf.rep_root hz
    rw [hf'.root hx] at this
    exact hd.root0 this
  · intro x y hx
    obtain ⟨z, hz⟩ := hold hx
    rw [hr]; exact hd.rankRoot hz
  · intro x y hx
    obtain ⟨z, hz⟩ := hold hx
    rw [hr, hk]; exact hd.size hz

theorem Deep.find {u u' : UFCpp K} {rep : K → K} {d : K → Nat} {x r : K} (hd : Deep u rep d)
    (hf : Forest u.parent rep d) (hx : x ∈ u.parent.keys) (h : u.find x = some (u', r)) :
    Deep u' rep d := by
  obtain ⟨_, h2, h3, h4⟩ := findAux_some hf _ hx h
  exact hd.of_same hf h2 h3 h4

theorem make_deep {u : UFCpp K} {rep : K → K} {d : K → Nat} {x : K} (hd : Deep u rep d)
    (hf : Forest u.parent rep d) (hx : u.parent.get? x = none) :
    Forest (u.make x).parent (fun y => if y = x then x else rep y)
      (fun y => if y = x then 0 else d y) ∧
    Deep (u.make x) (fun y => if y = x then x else rep y) (fun y => if y = x then 0 else d y) := by
  have hkey : ∀ {a b}, u.parent.get? a = some b → a ≠ x := by
    rintro a b hab rfl; rw [hx] at hab; cases hab
  refine ⟨?_, ?_, ?_, ?_⟩
  · have h1 : Forest u.parent rep (fun y => if y = x then 0 else d y) :=
      hf.congr_d (fun a b hab => by simp [hkey hab])
    exact h1.insert hx
  · intro a ha
    simp only [UFCpp.make, Dict.get?_set] at ha
    split at ha
    · rename_i hax; subst hax; simp
    · simp [hkey ha, hd.root0 ha]
  · intro a b hab
    simp only [UFCpp.make, Dict.get?_set] at hab ⊢
    split at hab
    · rename_i hxa; subst hxa; simp
    · have h1 := hkey hab
      have h2 := hkey (hf.rep_root hab)
      rw [if_neg h1, if_neg h1, if_neg (Ne.symm h2)]
      exact hd.rankRoot hab
  · intro a b hab
    simp only [UFCpp.make, Dict.get?_set] at hab ⊢
    split at hab
    · rename_i hxa; subst hxa
      simp only [if_true]
      rw [hf.cnt_insert_self hx]; simp
    · have h1 := hkey hab
      have h2 := hkey (hf.rep_root hab)
      rw [if_neg h1, if_neg (Ne.symm h2), hf.cnt_insert hx h2]
      exact hd.size hab

/-- Hanging a root of no larger rank (`rank` of the new root grows when they are equal). -/
theorem Deep.hang {u : UFCpp K} {rep : K → K} {d : K → Nat} {r t : K} (hd : Deep u rep d)
    (hf : Forest u.parent rep d) (hr : u.parent.get? r = some r) (ht : u.parent.get? t = some t)
    (hne : r ≠ t) (rank' : Dict K Nat)
    (hother : ∀ s, s ≠ t → (rank'.get? s).getD 0 = (u.rank.get? s).getD 0)
    (hlo : (u.rank.get? r).getD 0 < (rank'.get? t).getD 0)
    (hhi : (rank'.get? t).getD 0 = (u.rank.get? t).getD 0 ∨
      ((rank'.get? t).getD 0 = (u.rank.get? t).getD 0 + 1 ∧
        (u.rank.get? r).getD 0 = (u.rank.get? t).getD 0)) :
    Deep ⟨u.parent.set r t, rank'⟩ (fun x => if rep x = r then t else rep x)
      (fun x => if rep x = r then d x + d t + 1 else d x) := by
  have hrr := hf.root hr
  have htt := hf.root ht
  have hdt := hd.root0 ht
  have hold : ∀ {x y}, (u.parent.set r t).get? x = some y → ∃ z, u.parent.get? x = some z := by
    intro x y hx
    exact (Forest.has_set_rep hr).1 ⟨y, hx⟩
  have hkeys : (u.parent.set r t).keys = u.parent.keys := by
    rw [Dict.keys_set, if_pos (mem_of_exists hr)]
  have hsr := hd.size hr
  have hst := hd.size ht
  rw [hrr] at hsr
  rw [htt] at hst
  have hrepr : ∀ {x y}, u.parent.get? x = some y → rep (rep x) = rep x := fun h => hf.rep_rep h
  refine ⟨?_, ?_, ?_⟩
  · intro x hx
    simp only [Dict.get?_set] at hx
    split at hx
    · rename_i h; subst h; cases hx; exact absurd rfl hne
    · rename_i h
      have : rep x ≠ r := by rw [hf.root hx]; exact Ne.symm h
      simp only [this, if_false]; exact hd.root0 hx
  · intro x y hx
    obtain ⟨z, hz⟩ := hold hx
    have h1 := hd.rankRoot hz
    by_cases hxr : rep x = r
    · simp only [hxr, if_true] at h1 ⊢
      omega
    · simp only [hxr, if_false]
      by_cases hxt : rep x = t
      · rw [hxt] at h1 ⊢; omega
      · rw [hother _ hxt]; exact h1
  · intro x y hx
    obtain ⟨z, hz⟩ := hold hx
    simp only [hkeys]
    have key : 2 ^ (rank'.get? t).getD 0 ≤ cnt u.parent.keys rep r + cnt u.parent.keys rep t := by
      rcases hhi with h | ⟨h, h'⟩
      · rw [h]; omega
      · rw [h, Nat.pow_succ]; rw [h'] at hsr; omega
    by_cases hxr : rep x = r
    · simp only [hxr, if_true]
      rw [cnt_link _ _ hne]; exact key
    · simp only [hxr, if_false]
      by_cases hxt : rep x = t
      · rw [hxt, cnt_link _ _ hne]; exact key
      · rw [hother _ hxt, cnt_link_other _ _ hxt hxr]; exact hd.size hz

theorem union_deep {u u' : UFCpp K} {rep : K → K} {d : K → Nat} {x y : K} (hd : Deep u rep d)
    (hf : Forest u.parent rep d) (hx : x ∈ u.parent.keys) (hy : y ∈ u.parent.keys)
    (h : u.union x y = some u') : ∃ rep' d', Forest u'.parent rep' d' ∧ Deep u' rep' d' := by
  obtain ⟨u1, h1, hf1, hk1, hr1⟩ := find_total hf hx
  have hd1 := hd.of_same hf hf1 hk1 hr1
  have hy1 : y ∈ u1.parent.keys := by rw [hk1]; exact hy
  obtain ⟨u2, h2, hf2, hk2, hr2⟩ := find_total hf1 hy1
  have hd2 := hd1.of_same hf1 hf2 hk2 hr2
  obtain ⟨ax, hax⟩ := exists_of_mem (p := u2.parent) (x := x) (by rw [hk2, hk1]; exact hx)
  obtain ⟨ay, hay⟩ := exists_of_mem (p := u2.parent) (x := y) (by rw [hk2, hk1]; exact hy)
  have hrx := hf2.rep_root hax
  have hry := hf2.rep_root hay
  simp only [union, h1, h2] at h
  by_cases hne : rep x = rep y
  · simp only [hne, ne_eq, not_true_eq_false, if_false, Option.some.injEq] at h
    subst h; exact ⟨rep, d, hf2, hd2⟩
  · rw [if_pos (by simpa using hne)] at h
    simp only [Option.some.injEq] at h
    subst h
    unfold link
    simp only
    split
    · rename_i hlt
      exact ⟨_, _, hf2.link hrx hry hne,
        hd2.hang hf2 hrx hry hne u2.rank (fun _ _ => rfl) hlt (.inl rfl)⟩
    · rename_i hlt
      refine ⟨_, _, hf2.link hry hrx (Ne.symm hne),
        hd2.hang hf2 hry hrx (Ne.symm hne) _ ?_ ?_ ?_⟩
      · intro s hs
        split
        · rw [Dict.get?_set, if_neg (Ne.symm hs)]
        · rfl
      · split
        · rename_i he; rw [Dict.get?_set, if_pos rfl]; simp only [Option.getD_some]; omega
        · omega
      · split
        · rename_i he; right; rw [Dict.get?_set, if_pos rfl]
          exact ⟨rfl, he.symm⟩
        · left; rfl

theorem deep_run (ops : List (Op K)) (hv : ValidOps ops) {u : UFCpp K} (hu : run ops = some u) :
    ∃ rep d, Forest u.parent rep d ∧ Deep u rep d := by
  induction ops using List.reverseRecOn generalizing u with
  | nil =>
    cases hu
    exact ⟨id, fun _ => 0, Forest.empty, by constructor <;> simp [empty]⟩
  | append_singleton ops op ih =>
    have hv' : ValidOps ops := by
      intro b o a hab
      exact hv b o (a ++ [op]) (by simp [hab])
    obtain ⟨w, _, _, h1, _, h3⟩ := inv_run ops hv'
    obtain ⟨rep, d, hf, hd⟩ := ih hv' h1
    have hop := hv ops op [] rfl
    rw [run_snoc, h1] at hu
    cases op with
    | make x =>
      have hxn : x ∉ w.parent.keys := by rw [h3]; exact hop
      have hnone : w.parent.get? x = none := by
        cases hg : w.parent.get? x with
        | none => rfl
        | some y => exact absurd (mem_of_exists hg) hxn
      have := make_deep hd hf hnone
      cases hu
      exact ⟨_, _, this⟩
    | find x =>
      have hxk : x ∈ w.parent.keys := by rw [h3]; exact hop
      obtain ⟨u', g1, g2, g3, g4⟩ := find_total hf hxk
      simp only [Option.bind_some, step, g1, Option.map_some, Option.some.injEq] at hu
      subst hu
      exact ⟨rep, d, g2, hd.of_same hf g2 g3 g4⟩
    | union x y =>
      exact union_deep hd hf (by rw [h3]; exact hop.1) (by rw [h3]; exact hop.2) hu

theorem findAux_depth {u : UFCpp K} {rep : K → K} {d : K → Nat} (hf : Forest u.parent rep d)
    (n : Nat) {x y : K} (hx : u.parent.get? x = some y) (hn : d x ≤ n) :
    (findAux n u x).isSome := by
  induction n generalizing x y with
  | zero =>
    simp only [findAux, hx]
    by_cases hyx : y = x
    · simp [hyx]
    · have := hf.desc hx hyx; omega
  | succ n ih =>
    unfold findAux
    rw [hx]
    simp only
    split
    · rfl
    · rename_i hyx
      have := hf.desc hx hyx
      obtain ⟨z, hz⟩ := hf.closed hx
      obtain ⟨q, hq⟩ := Option.isSome_iff_exists.1 (ih hz (by omega))
      simp [hq]

/-- After any history of allocations, finds and unions, a find of `x` follows at most `n` parent
pointers whenever the class of `x` has fewer than `2 ^ (n + 1)` elements: the depth is at most
the base-2 logarithm of the class size. -/
theorem C61_cpp_depth (ops : List (Op K)) (hv : ValidOps ops) {u : UFCpp K}
    (hu : run ops = some u) {x : K} (hx : x ∈ made ops) (cls : List K)
    (hcls : ∀ y ∈ made ops, Linked (unions ops) x y → y ∈ cls) (n : Nat)
    (hn : cls.length < 2 ^ (n + 1)) : ∃ u' r, findAux n u x = some (u', r) := by
  obtain ⟨w, rep0, d0, h1, hI, h3⟩ := inv_run ops hv
  rw [hu] at h1; cases h1
  obtain ⟨rep, d, hf, hd⟩ := deep_run ops hv hu
  obtain ⟨y, hy⟩ := exists_of_mem ((h3 x).2 hx)
  have hs := hd.size hy
  have hr := hd.rankRoot hy
  have hc : cnt u.parent.keys rep (rep x) ≤ cls.length := by
    refine cnt_le_length hf.wf _ _ cls ?_
    intro z hz hzx
    obtain ⟨a, ha⟩ := exists_of_mem hz
    refine hcls z ((h3 z).1 hz) ?_
    rw [← Linked_congr (a := (unions ops).reverse) (by simp)]
    refine hI.sound (mem_of_exists hy) hz ?_
    rw [hI.forest.rep_unique hf hy, hI.forest.rep_unique hf ha, hzx]
  have hlt : (u.rank.get? (rep x)).getD 0 < n + 1 := by
    by_contra hge
    have := Nat.pow_le_pow_right (n := 2) (by omega) (Nat.le_of_not_lt hge)
    omega
  obtain ⟨⟨u', r⟩, hq⟩ := Option.isSome_iff_exists.1 (findAux_depth hf n hy (by omega))
  exact ⟨u', r, hq⟩

/-- In the sample history the class `{1, 2, 3}` has `3 < 2 ^ 2` elements: one step suffices. -/
example : ∃ u, run sampleOps = some u ∧ (∃ q, findAux 1 u 3 = some q) ∧ findAux 0 u 3 = none := by
  refine ⟨_, rfl, ?_, by decide⟩
  exact ⟨_, rfl⟩

end Verif.UFCpp

namespace Verif.UFPy
variable {K : Type} [DecidableEq K]

/-- Weight invariant: the weight of a root is the size of its class, and a depth `k` needs `2 ^ k`
elements. -/
structure Deep (u : UFPy K) (rep : K → K) (d : K → Nat) : Prop where
  root0 : ∀ {x}, u.parents.get? x = some x → d x = 0
  weight : ∀ {x y}, u.parents.get? x = some y →
    u.weights.get? (rep x) = some (cnt u.parents.keys rep (rep x))
  pow : ∀ {x y}, u.parents.get? x = some y → 2 ^ d x ≤ cnt u.parents.keys rep (rep x)

theorem Deep.of_same {u u' : UFPy K} {rep : K → K} {d : K → Nat} (hd : Deep u rep d)
    (hf : Forest u.parents rep d) (hf' : Forest u'.parents rep d)
    (hk : u'.parents.keys = u.parents.keys) (hr : u'.weights = u.weights) : Deep u' rep d := by
  have hold : ∀ {x y}, u'.parents.get? x = some y → ∃ z, u.parents.get? x = some z := by
    intro x y hx
    exact exists_of_mem (hk ▸ mem_of_exists hx)
  refine ⟨?_, ?_, ?_⟩
  · intro x hx
    obtain ⟨z, hz⟩ := hold hx
    have := hf.rep_root hz
    rw [hf'.root hx] at this
    exact hd.root0 this
  · intro x y hx
    obtain ⟨z, hz⟩ := hold hx
    rw [hr, hk]; exact hd.weight hz
  · intro x y hx
    obtain ⟨z, hz⟩ := hold hx
    rw [hk]; exact hd.pow hz

theorem find_deep {u u' : UFPy K} {rep : K → K} {d : K → Nat} {x r : K} (hd : Deep u rep d)
    (hf : Forest u.parents rep d) (h : u.find x = some (u', r)) :
    ∃ rep' d', Forest u'.parents rep' d' ∧ Deep u' rep' d' ∧ r = rep' x ∧
      (∃ z, u'.parents.get? x = some z) ∧
      (∀ a b, u.parents.get? a = some b → rep' a = rep a ∧ ∃ c, u'.parents.get? a = some c) := by
  unfold find at h
  by_cases hx : u.parents.has x
  · rw [if_pos hx] at h
    have hxk : x ∈ u.parents.keys := by rwa [← Dict.has_iff_mem]
    obtain ⟨y, hy⟩ := exists_of_mem hxk
    obtain ⟨q, hq⟩ := walk_total hf hy
    obtain ⟨h1, h2⟩ := walk_some hf _ hy hq
    rw [← h1] at h2
    obtain ⟨hf', hk⟩ := hf.compress q.1 h2
    rw [hq] at h
    simp only [Option.map_some, Option.some.injEq, Prod.mk.injEq] at h
    obtain ⟨rfl, rfl⟩ := h
    refine ⟨rep, d, hf', hd.of_same hf hf' hk rfl, h1, exists_of_mem (by simpa only [hk] using hxk), ?_⟩
    intro a b hab
    exact ⟨rfl, exists_of_mem (by simpa only [hk] using mem_of_exists hab)⟩
  · rw [if_neg hx] at h
    have hxk : x ∉ u.parents.keys := by rwa [← Dict.has_iff_mem]
    have hnone : u.parents.get? x = none := by
      cases hg : u.parents.get? x with
      | none => rfl
      | some y => exact absurd (mem_of_exists hg) hxk
    simp only [Option.some.injEq, Prod.mk.injEq] at h
    obtain ⟨rfl, rfl⟩ := h
    have hkey : ∀ {a b}, u.parents.get? a = some b → a ≠ x := by
      rintro a b hab rfl; rw [hnone] at hab; cases hab
    have hf1 : Forest u.parents rep (fun y => if y = x then 0 else d y) :=
      hf.congr_d (fun a b hab => by simp [hkey hab])
    refine ⟨fun y => if y = x then x else rep y, fun y => if y = x then 0 else d y,
      hf1.insert hnone, ⟨?_, ?_, ?_⟩, by simp, ⟨x, by simp⟩, ?_⟩
    · intro a ha
      simp only [Dict.get?_set] at ha
      split at ha
      · rename_i hax; subst hax; simp
      · simp [hkey ha, hd.root0 ha]
    · intro a b hab
      simp only [Dict.get?_set] at hab ⊢
      split at hab
      · rename_i hxa; subst hxa
        simp only [if_true]
        rw [hf.cnt_insert_self hnone]
      · have h1 := hkey hab
        have h2 := hkey (hf.rep_root hab)
        rw [if_neg h1, if_neg (Ne.symm h2), hf.cnt_insert hnone h2]
        exact hd.weight hab
    · intro a b hab
      simp only [Dict.get?_set] at hab ⊢
      split at hab
      · rename_i hxa; subst hxa
        simp only [if_true]
        rw [hf.cnt_insert_self hnone]; simp
      · have h1 := hkey hab
        have h2 := hkey (hf.rep_root hab)
        simp only [h1, if_false]
        rw [hf.cnt_insert hnone h2]
        exact hd.pow hab
    · intro a b hab
      simp only [hkey hab, if_false, true_and]
      rw [Dict.get?_set, if_neg (Ne.symm (hkey hab))]
      exact ⟨b, hab⟩

/-- Hanging the root of the smaller class below the other root and adding its weight. -/
theorem Deep.hang {u : UFPy K} {rep : K → K} {d : K → Nat} {r t : K} (hd : Deep u rep d)
    (hf : Forest u.parents rep d) (hr : u.parents.get? r = some r) (ht : u.parents.get? t = some t)
    (hne : r ≠ t) (hle : (u.weights.get? r).getD 0 ≤ (u.weights.get? t).getD 0) :
    Deep (attach t u r) (fun x => if rep x = r then t else rep x)
      (fun x => if rep x = r then d x + d t + 1 else d x) := by
  have hrr := hf.root hr
  have htt := hf.root ht
  have hdt := hd.root0 ht
  have hwr := hd.weight hr
  have hwt := hd.weight ht
  rw [hrr] at hwr
  rw [htt] at hwt
  rw [hwr, hwt] at hle
  simp only [Option.getD_some] at hle
  have hpar : (attach t u r).parents = u.parents.set r t := by simp [attach, hne]
  have hwts : (attach t u r).weights =
      u.weights.set t (cnt u.parents.keys rep t + cnt u.parents.keys rep r) := by
    simp [attach, hne, hwr, hwt]
  have hold : ∀ {x y}, (attach t u r).parents.get? x = some y →
      ∃ z, u.parents.get? x = some z := by
    intro x y hx
    rw [hpar] at hx
    exact (Forest.has_set_rep hr).1 ⟨y, hx⟩
  have hkeys : (attach t u r).parents.keys = u.parents.keys := by
    rw [hpar, Dict.keys_set, if_pos (mem_of_exists hr)]
  refine ⟨?_, ?_, ?_⟩
  · intro x hx
    rw [hpar] at hx
    simp only [Dict.get?_set] at hx
    split at hx
    · rename_i h; subst h; cases hx; exact absurd rfl hne
    · rename_i h
      have : rep x ≠ r := by rw [hf.root hx]; exact Ne.symm h
      simp only [this, if_false]; exact hd.root0 hx
  · intro x y hx
    obtain ⟨z, hz⟩ := hold hx
    rw [hkeys, hwts]
    by_cases hxr : rep x = r
    · simp only [hxr, if_true]
      rw [cnt_link _ _ hne, Dict.get?_set, if_pos rfl, Nat.add_comm]
    · simp only [hxr, if_false]
      by_cases hxt : rep x = t
      · rw [hxt, cnt_link _ _ hne, Dict.get?_set, if_pos rfl, Nat.add_comm]
      · rw [Dict.get?_set, if_neg (Ne.symm hxt), cnt_link_other _ _ hxt hxr]
        exact hd.weight hz
  · intro x y hx
    obtain ⟨z, hz⟩ := hold hx
    have hp := hd.pow hz
    rw [hkeys]
    by_cases hxr : rep x = r
    · simp only [hxr, if_true]
      rw [hxr] at hp
      rw [cnt_link _ _ hne, hdt, Nat.add_zero, Nat.pow_succ]
      omega
    · simp only [hxr, if_false]
      by_cases hxt : rep x = t
      · rw [hxt] at hp ⊢
        rw [cnt_link _ _ hne]; omega
      · rw [cnt_link_other _ _ hxt hxr]; exact hp

/-- Only `union` calls with one or two arguments (as in opensfm/tracking.py:88). -/
def Binary (ops : List (Op K)) : Prop :=
  ∀ objs, Op.union objs ∈ ops → objs.length = 1 ∨ objs.length = 2

theorem Binary.valid {ops : List (Op K)} (h : Binary ops) : ValidOps ops := by
  intro objs ho
  rcases h objs ho with h | h <;> (rintro rfl; simp at h)

theorem union_deep (lt : K → K → Bool) {u u' : UFPy K} {rep : K → K} {d : K → Nat}
    (hd : Deep u rep d) (hf : Forest u.parents rep d) {objs : List K}
    (hl : objs.length = 1 ∨ objs.length = 2) (h : u.union lt objs = some u') :
    ∃ rep' d', Forest u'.parents rep' d' ∧ Deep u' rep' d' := by
  match objs, hl with
  | [x], _ =>
    unfold union at h
    simp only [findAll] at h
    cases hx : u.find x with
    | none => simp [hx] at h
    | some q =>
      obtain ⟨u1, r⟩ := q
      obtain ⟨rep1, d1, hf1, hd1, _⟩ := find_deep hd hf hx
      simp only [hx, Option.map_some, heaviest] at h
      split at h
      · cases h
      · rename_i t ht
        split at ht
        · cases ht; cases h
          exact ⟨rep1, d1, by simpa [attach] using hf1, by simpa [attach] using hd1⟩
        · cases ht
  | [x, y], _ =>
    unfold union at h
    simp only [findAll] at h
    cases hx : u.find x with
    | none => simp [hx] at h
    | some q =>
      obtain ⟨u1, r⟩ := q
      obtain ⟨rep1, d1, hf1, hd1, hr1, hx1, _⟩ := find_deep hd hf hx
      simp only [hx] at h
      cases hy : u1.find y with
      | none => simp [hy] at h
      | some q =>
        obtain ⟨u2, s⟩ := q
        obtain ⟨rep2, d2, hf2, hd2, hr2, hy2, hold⟩ := find_deep hd1 hf1 hy
        obtain ⟨z1, hz1⟩ := hx1
        obtain ⟨hrx, zx, hzx⟩ := hold x z1 hz1
        obtain ⟨zy, hzy⟩ := hy2
        rw [← hrx] at hr1
        have hr := hf2.rep_root hzx
        have hs := hf2.rep_root hzy
        rw [← hr1] at hr
        rw [← hr2] at hs
        have hwr := hd2.weight hr
        have hws := hd2.weight hs
        rw [hf2.root hr] at hwr
        rw [hf2.root hs] at hws
        have hhas : u2.weights.has s = true := by
          rw [Dict.has_iff_mem, Dict.mem_keys_iff, hws]; rfl
        simp only [hy, Option.map_some, heaviest, hhas, if_true, hwr] at h
        by_cases hrs : r = s
        · subst hrs
          rw [hwr] at h
          simp only [Option.getD_some, ite_self, List.foldl_cons, List.foldl_nil, attach, ne_eq,
            not_true_eq_false, if_false, Option.some.injEq] at h
          subst h
          exact ⟨rep2, d2, hf2, hd2⟩
        · by_cases hc : (cnt u2.parents.keys rep2 r < (u2.weights.get? s).getD 0 ∨
              (cnt u2.parents.keys rep2 r = (u2.weights.get? s).getD 0 ∧ lt r s = true))
          · rw [if_pos hc] at h
            have hss : attach s (attach s u2 r) s = attach s u2 r := by simp [attach]
            simp only [List.foldl_cons, List.foldl_nil, hss, Option.some.injEq] at h
            subst h
            refine ⟨_, _, ?_, hd2.hang hf2 hr hs hrs ?_⟩
            · have : (attach s u2 r).parents = u2.parents.set r s := by simp [attach, hrs]
              rw [this]; exact hf2.link hr hs hrs
            · rw [hwr]; simp only [Option.getD_some]
              rcases hc with hc | hc
              · omega
              · omega
          · rw [if_neg hc] at h
            have hss : attach r u2 r = u2 := by simp [attach]
            simp only [List.foldl_cons, List.foldl_nil, hss, Option.some.injEq] at h
            subst h
            refine ⟨_, _, ?_, hd2.hang hf2 hs hr (Ne.symm hrs) ?_⟩
            · have : (attach r u2 s).parents = u2.parents.set s r := by
                simp [attach, Ne.symm hrs]
              rw [this]; exact hf2.link hs hr (Ne.symm hrs)
            · rw [hwr]; simp only [Option.getD_some]
              rw [not_or] at hc
              omega

theorem deep_run (lt : K → K → Bool) (ops : List (Op K)) (hb : Binary ops) {u : UFPy K}
    (hu : run lt ops = some u) : ∃ rep d, Forest u.parents rep d ∧ Deep u rep d := by
  induction ops using List.reverseRecOn generalizing u with
  | nil =>
    cases hu
    exact ⟨id, fun _ => 0, Forest.empty, by constructor <;> simp [empty]⟩
  | append_singleton ops op ih =>
    have hb' : Binary ops := fun objs h => hb objs (by simp [h])
    obtain ⟨w, _, _, h1, _, _⟩ := inv_run lt ops hb'.valid
    obtain ⟨rep, d, hf, hd⟩ := ih hb' h1
    rw [run_snoc, h1] at hu
    cases op with
    | get x =>
      simp only [Option.bind_some, step, Option.map_eq_some_iff] at hu
      obtain ⟨⟨v, r⟩, hq, rfl⟩ := hu
      obtain ⟨rep1, d1, g1, g2, _⟩ := find_deep hd hf hq
      exact ⟨rep1, d1, g1, g2⟩
    | union objs => exact union_deep lt hd hf (hb objs (by simp)) hu

theorem walk_depth {p : Dict K K} {rep : K → K} {d : K → Nat} (hf : Forest p rep d)
    (n : Nat) {x y : K} (hx : p.get? x = some y) (hn : d x ≤ n) : (walk p n x).isSome := by
  induction n generalizing x y with
  | zero =>
    simp only [walk, hx]
    by_cases hyx : y = x
    · simp [hyx]
    · have := hf.desc hx hyx; omega
  | succ n ih =>
    unfold walk
    rw [hx]
    simp only
    split
    · rfl
    · rename_i hyx
      have := hf.desc hx hyx
      obtain ⟨z, hz⟩ := hf.closed hx
      simpa using ih hz (by omega)

/-- Python: when every `union` has at most two arguments, the loop of a lookup of a known item
makes at most log2 (class size) iterations. -/
theorem C61_py_depth (lt : K → K → Bool) (ops : List (Op K)) (hb : Binary ops) {u : UFPy K}
    (hu : run lt ops = some u) {x : K} (hx : x ∈ mentioned ops) (cls : List K)
    (hcls : ∀ y ∈ mentioned ops, Linked (unions ops) x y → y ∈ cls) (n : Nat)
    (hn : cls.length < 2 ^ (n + 1)) : ∃ path r, walk u.parents n x = some (path, r) := by
  obtain ⟨w, rep0, d0, h1, hI, h3⟩ := inv_run lt ops hb.valid
  rw [hu] at h1; cases h1
  obtain ⟨rep, d, hf, hd⟩ := deep_run lt ops hb hu
  obtain ⟨y, hy⟩ := exists_of_mem ((h3 x).2 hx)
  have hs := hd.pow hy
  have hc : cnt u.parents.keys rep (rep x) ≤ cls.length := by
    refine cnt_le_length hf.wf _ _ cls ?_
    intro z hz hzx
    obtain ⟨a, ha⟩ := exists_of_mem hz
    refine hcls z ((h3 z).1 hz) ?_
    rw [← Linked_congr (a := (unions ops).reverse) (by simp)]
    refine hI.sound (mem_of_exists hy) hz ?_
    rw [hI.forest.rep_unique hf hy, hI.forest.rep_unique hf ha, hzx]
  have hlt : d x < n + 1 := by
    by_contra hge
    have := Nat.pow_le_pow_right (n := 2) (by omega) (Nat.le_of_not_lt hge)
    omega
  obtain ⟨⟨q, r⟩, hq⟩ := Option.isSome_iff_exists.1 (walk_depth hf n hy (by omega))
  exact ⟨q, r, hq⟩

/-- Python: when every `union` has at most two arguments, the weight stored for the root that a
lookup returns is the number of items connected to the argument. -/
theorem C61_py_weight (lt : K → K → Bool) (ops : List (Op K)) (hb : Binary ops) {u u' : UFPy K}
    (hu : run lt ops = some u) {x r : K} (hx : x ∈ mentioned ops) (hf : u.find x = some (u', r))
    (cls : List K) (hnd : cls.Nodup)
    (hcls : ∀ y, y ∈ cls ↔ y ∈ mentioned ops ∧ Linked (unions ops) x y) :
    u'.weights.get? r = some cls.length := by
  obtain ⟨w, rep0, d0, h1, hI, h3⟩ := inv_run lt ops hb.valid
  rw [hu] at h1; cases h1
  obtain ⟨rep1, d1, hfo, hd⟩ := deep_run lt ops hb hu
  obtain ⟨v, rep2, k1, k2, k3, k4, _⟩ := find_spec hI x
  rw [hf] at k1; cases k1
  obtain ⟨rep, d, hf', hd', hr, ⟨z, hz⟩, _⟩ := find_deep hd hfo hf
  have hw := hd'.weight hz
  rw [hr, hw]
  congr 1
  refine cnt_eq_length hf'.wf _ _ cls hnd ?_
  intro y
  have hk : ∀ y, y ∈ u'.parents.keys ↔ y ∈ mentioned ops := by
    intro y; rw [k3, h3]
    constructor
    · rintro (rfl | h)
      · exact hx
      · exact h
    · exact .inr
  rw [hcls, hk]
  constructor
  · rintro ⟨hm, hl⟩
    refine ⟨hm, ?_⟩
    rw [← Linked_congr (a := (unions ops).reverse) (by simp)] at hl
    obtain ⟨b, hb'⟩ := exists_of_mem ((hk y).2 hm)
    rw [hf'.rep_unique k2.forest hb', hf'.rep_unique k2.forest hz]
    exact (k2.complete hl).symm
  · rintro ⟨hm, he⟩
    refine ⟨hm, ?_⟩
    rw [← Linked_congr (a := (unions ops).reverse) (by simp)]
    obtain ⟨b, hb'⟩ := exists_of_mem ((hk y).2 hm)
    rw [hf'.rep_unique k2.forest hb', hf'.rep_unique k2.forest hz] at he
    exact k2.sound ((hk x).2 hx) ((hk y).2 hm) he.symm

/-- A history that passes three arguments, two of them already united. -/
def tripleOps : List (Op Nat) := [.union [1, 2], .union [3, 4, 5], .union [3, 1, 2]]

/-- The restriction to two arguments is needed: a class united through two of its members in one
call is counted twice. Five items, weight seven. -/
theorem C61_py_overcount : ∃ u, run (fun a b => decide (a < b)) tripleOps = some u ∧
    (u.find 1).map (fun q => u.weights.get? q.2) = some (some 7) ∧
    (mentioned tripleOps).dedup = [4, 5, 3, 1, 2] := by
  refine ⟨_, rfl, ?_, ?_⟩ <;> decide

example : Binary [Op.union [1, 2], .union [3, 4], .get 2, .union [3, 1], .union [5]] := by
  intro objs h
  simp at h
  rcases h with h | h | h | h <;> subst h <;> simp

example : (run (fun a b => decide (a < b)) [Op.union [1, 2], .union [3, 4], .get 2, .union [3, 1], .union [5]]).map
    (fun u => ((u.find 1).map (fun q => u.weights.get? q.2), u.parents)) =
    some (some (some 4), [(1, 2), (2, 4), (3, 4), (4, 4), (5, 5)]) := by decide

end Verif.UFPy
