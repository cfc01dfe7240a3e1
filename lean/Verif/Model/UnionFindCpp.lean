import Verif.Base.Group

/-!
# Model of `opensfm/src/foundation/union_find.h`

`UnionFindElement` pointers are identities of an arbitrary type `K`; the heap is a
dictionary from element to its `parent` pointer and one from element to its `rank`.
-/
namespace Verif

/-- The heap cells of the elements (union_find.h:8-16). -/
structure UFCpp (K : Type) where
  parent : Dict K K
  rank : Dict K Nat
  deriving Repr

namespace UFCpp
variable {K : Type} [DecidableEq K]

/-- No element allocated yet. -/
def empty : UFCpp K := ⟨[], []⟩

/-- Constructor: `parent(this), rank(0)` (union_find.h:14-15). -/
def make (u : UFCpp K) (x : K) : UFCpp K :=
  { parent := u.parent.set x x, rank := u.rank.set x 0 }

/-- `Find` (union_find.h:18-24): recursive, with path compression. `none` models a
dangling pointer or a recursion deeper than `fuel`. -/
def findAux : Nat → UFCpp K → K → Option (UFCpp K × K)
  | fuel, u, e =>
    match u.parent.get? e with
    | none => none
    | some p =>
      if p = e then some (u, e) else
      match fuel with
      | 0 => none
      | n + 1 =>
        match findAux n u p with
        | none => none
        | some (u', r) => some ({ u' with parent := u'.parent.set e r }, r)

/-- `Find(e)`; the recursion depth is bounded by the number of elements. -/
def find (u : UFCpp K) (e : K) : Option (UFCpp K × K) := findAux u.parent.length u e

/-- Linking of two distinct roots by rank (union_find.h:30-38). -/
def link (u : UFCpp K) (r1 r2 : K) : UFCpp K :=
  let k1 := (u.rank.get? r1).getD 0
  let k2 := (u.rank.get? r2).getD 0
  if k1 < k2 then { u with parent := u.parent.set r1 r2 }
  else
    { parent := u.parent.set r2 r1
      rank := if k1 = k2 then u.rank.set r1 (k1 + 1) else u.rank }

/-- `Union` (union_find.h:26-40). -/
def union (u : UFCpp K) (e1 e2 : K) : Option (UFCpp K) :=
  match u.find e1 with
  | none => none
  | some (u1, r1) =>
    match u1.find e2 with
    | none => none
    | some (u2, r2) => if r1 ≠ r2 then some (link u2 r1 r2) else some u2

/-- Grouping loop of `GetUnionFindClusters` (union_find.h:45-49); `agg.push r e` is
`aggregations[r].emplace_back(e)`. -/
def aggregate : UFCpp K → List K → Dict K (List K) → Option (UFCpp K × Dict K (List K))
  | u, [], agg => some (u, agg)
  | u, e :: es, agg =>
    match u.find e with
    | none => none
    | some (u', r) => aggregate u' es (agg.push r e)

/-- `GetUnionFindClusters` (union_find.h:42-65) returns `out`: the values of the
aggregation in the (unspecified) hash order, then sorted by an unstable `std::sort` on
the cluster size. Both freedoms are covered by allowing any permutation of the groups
that is sorted by size. -/
def Clusters (u : UFCpp K) (elements : List K) (out : List (List K)) : Prop :=
  ∃ u' agg, aggregate u elements [] = some (u', agg) ∧
    out.Perm agg.vals ∧ out.Pairwise (fun a b => a.length ≤ b.length)

/-- A call. -/
inductive Op (K : Type) where
  | make (x : K)
  | find (x : K)
  | union (x y : K)

/-- One call (`none`: crash or unbounded recursion). -/
def step (u : UFCpp K) : Op K → Option (UFCpp K)
  | .make x => some (u.make x)
  | .find x => (u.find x).map (·.1)
  | .union x y => u.union x y

/-- A history of calls, oldest first. -/
def run (ops : List (Op K)) : Option (UFCpp K) :=
  ops.foldl (fun u op => u.bind (step · op)) (some empty)

end UFCpp
end Verif
