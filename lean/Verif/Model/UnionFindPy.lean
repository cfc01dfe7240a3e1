import Verif.Base.Dict

/-!
# Model of `opensfm/unionfind.py`

`/repo/opensfm/unionfind.py:47-104` (class `UnionFind`). Items are an arbitrary
type `K`; `lt` is the item order Python's `max` over `(weight, item)` tuples uses.
An exception (`KeyError`, `ValueError`) or a loop that does not end within as many
steps as there are known items is the result `none`; the theorems show when that
happens.
-/
namespace Verif

/-- The two dictionaries of a `UnionFind` (unionfind.py:65-68). -/
structure UFPy (K : Type) where
  parents : Dict K K
  weights : Dict K Nat
  deriving Repr

namespace UFPy
variable {K : Type} [DecidableEq K]

/-- `UnionFind()` (unionfind.py:65-68). -/
def empty : UFPy K := ⟨[], []⟩

/-- The `while root != path[-1]` loop (unionfind.py:79-84): the path from `x` and
its root. Every Python iteration uses one unit of `fuel`. -/
def walk (p : Dict K K) : Nat → K → Option (List K × K)
  | fuel, x =>
    match p.get? x with
    | none => none
    | some r =>
      if r = x then some ([x], r) else
      match fuel with
      | 0 => none
      | n + 1 => (walk p n r).map fun q => (x :: q.1, q.2)

/-- `__getitem__` (unionfind.py:70-89). -/
def find (u : UFPy K) (x : K) : Option (UFPy K × K) :=
  if u.parents.has x then
    (walk u.parents u.parents.length x).map fun q =>
      ({ u with parents := q.1.foldl (fun p a => p.set a q.2) u.parents }, q.2)
  else
    some ({ parents := u.parents.set x x, weights := u.weights.set x 1 }, x)

/-- `roots = [self[x] for x in objects]` (unionfind.py:97): lookups in order, threading the state. -/
def findAll (u : UFPy K) : List K → Option (UFPy K × List K)
  | [] => some (u, [])
  | x :: xs =>
    match u.find x with
    | none => none
    | some (u', r) => (findAll u' xs).map fun q => (q.1, r :: q.2)

/-- `max((self.weights[r], r) for r in roots)[1]` (unionfind.py:98): `none` on an empty
list (`ValueError`) or a missing weight (`KeyError`). -/
def heaviest (lt : K → K → Bool) (w : Dict K Nat) : List K → Option K
  | [] => none
  | [r] => if w.has r then some r else none
  | r :: rs =>
    match w.get? r, heaviest lt w rs with
    | some wr, some b =>
      let wb := (w.get? b).getD 0
      if wr < wb ∨ (wr = wb ∧ lt r b) then some b else some r
    | _, _ => none

/-- One iteration of the merging loop (unionfind.py:99-102). -/
def attach (h : K) (u : UFPy K) (r : K) : UFPy K :=
  if r ≠ h then
    { parents := u.parents.set r h
      weights := u.weights.set h ((u.weights.get? h).getD 0 + (u.weights.get? r).getD 0) }
  else u

/-- `union(*objects)` (unionfind.py:95-102). -/
def union (lt : K → K → Bool) (u : UFPy K) (objs : List K) : Option (UFPy K) :=
  match u.findAll objs with
  | none => none
  | some (u', roots) =>
    match heaviest lt u'.weights roots with
    | none => none
    | some h => some (roots.foldl (attach h) u')

/-- `__iter__` (unionfind.py:91-93). -/
def items (u : UFPy K) : List K := u.parents.keys

/-- A call on the structure. -/
inductive Op (K : Type) where
  | get (x : K)
  | union (objs : List K)

/-- One call; `none` if it raises or does not end. -/
def step (lt : K → K → Bool) (u : UFPy K) : Op K → Option (UFPy K)
  | .get x => (u.find x).map (·.1)
  | .union objs => u.union lt objs

/-- A history of calls (oldest first) on a new structure. -/
def run (lt : K → K → Bool) : List (Op K) → Option (UFPy K) :=
  fun ops => ops.foldl (fun u op => u.bind (step lt · op)) (some empty)

end UFPy
end Verif
