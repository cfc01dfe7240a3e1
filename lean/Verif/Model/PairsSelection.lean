import Mathlib.Order.Defs.LinearOrder
import Mathlib.Data.List.Sort
import Verif.Base.Group

/-!
Model of /repo/opensfm/pairs_selection.py.

Python sets of pairs are lists (insertion with `List.insert`, so without duplicates); the order in
which a set is iterated or popped is arbitrary: theorems quantify over it. Nearest-neighbour
queries (scipy `cKDTree`), Delaunay triangulations, BoW/VLAD distances and `np.argsort` are
parameters. Image names are elements of a linear order; names are assumed truthy (non-empty).
-/
set_option linter.unusedSectionVars false
namespace Verif.PairsSelection

variable {Id : Type} [LinearOrder Id] {D C : Type}

/-- `sorted_pair` (pairs_selection.py:28-32). -/
def sortedPair (a b : Id) : Id × Id := if a < b then (a, b) else (b, a)

/-! ### `ordered_pairs` (pairs_selection.py:798-826) -/

/-- `per_image` (805-808): `per_image[im1].append(im2)`, `per_image[im2].append(im1)`. -/
def perImage (pairs : List (Id × Id)) : Dict Id (List Id) :=
  pairs.foldl (fun d p => Dict.push (Dict.push d p.1 p.2) p.2 p.1) []

/-- The state of the main loop: `ordered`, `remaining` and `next_image`. -/
structure OState (Id : Type) where
  ordered : List (Id × Id)
  remaining : List Id
  next : Option Id

/-- Body of the inner loop for one neighbour (818-822). -/
def visitOne (im1 : Id) (st : OState Id) (im2 : Id) : OState Id :=
  if (im2, im1) ∈ st.ordered then st
  else
    { ordered := st.ordered.insert (im1, im2)
      remaining := if st.next = none ∧ im2 ∈ st.remaining then st.remaining.erase im2 else st.remaining
      next := if st.next = none ∧ im2 ∈ st.remaining then some im2 else st.next }

/-- `set.pop()`: removes an arbitrary element; `pick` is the arbitrary choice. -/
def popAt (pick : Nat) (remaining : List Id) : Option (Id × List Id) :=
  match remaining[pick % remaining.length]? with
  | none => none
  | some x => some (x, remaining.erase x)

/-- The `while next_image` loop (814-825). `picks k` is the arbitrary choice made by the `k`-th
iteration. `fuel` bounds the iterations; `none` means that the bound was hit. -/
def orderLoop (per : Dict Id (List Id)) (picks : Nat → Nat) :
    Nat → Nat → Id → List (Id × Id) → List Id → Option (List (Id × Id))
  | 0, _, _, _, _ => none
  | fuel + 1, k, im1, ordered, remaining =>
    let st := ((per.get? im1).getD []).foldl (visitOne im1) ⟨ordered, remaining, none⟩
    match st.next with
    | some n => orderLoop per picks fuel (k + 1) n st.ordered st.remaining
    | none =>
      match popAt (picks k) st.remaining with
      | some (n, rem) => orderLoop per picks fuel (k + 1) n st.ordered rem
      | none => some st.ordered

/-- `ordered_pairs` (798-826). `refs` is `set(images_ref)`. -/
def orderedPairs (picks : Nat → Nat) (pairs : List (Id × Id)) (refs : List Id) :
    Option (List (Id × Id)) :=
  match popAt (picks 0) refs with
  | none => some []
  | some (n, rem) => orderLoop (perImage pairs) picks refs.length 1 n [] rem

/-! ### `match_candidates_by_order` (pairs_selection.py:562-578) -/

/-- Add `sorted_pair(ref, cand)` unless it is the same image (576-577, 557-558, 210-211). -/
def addPair (ref : Id) (pairs : List (Id × Id)) (cand : Id) : List (Id × Id) :=
  if ref ≠ cand then pairs.insert (sortedPair ref cand) else pairs

/-- Inner loop over `range(a, b)` (572-577). -/
def orderWindow (cand : List Id) (n i : Nat) (ref : Id) (pairs : List (Id × Id)) : List (Id × Id) :=
  let a := i - n
  let b := min cand.length (i + n)
  ((cand.take b).drop a).foldl (addPair ref) pairs

/-- Outer loop over `enumerate(images_ref)` (571-577). -/
def orderLoopRefs (cand : List Id) (n : Nat) : Nat → List Id → List (Id × Id) → List (Id × Id)
  | _, [], pairs => pairs
  | i, ref :: refs, pairs => orderLoopRefs cand n (i + 1) refs (orderWindow cand n i ref pairs)

/-- `match_candidates_by_order` (562-578). -/
def matchByOrder (refs cand : List Id) (maxNeighbors : Int) : List (Id × Id) :=
  if maxNeighbors ≤ 0 then []
  else orderLoopRefs cand ((maxNeighbors + 1) / 2).toNat 0 refs []

/-! ### `match_candidates_by_distance`, `_by_time` (154-212, 526-559) -/

/-- The loop over the neighbour indices returned by the tree for one reference image (206-211,
553-558); indices outside the candidate list are skipped. -/
def queryLoop (cand : List Id) (ref : Id) (js : List Nat) (pairs : List (Id × Id)) : List (Id × Id) :=
  js.foldl (fun ps j => match cand[j]? with
    | none => ps
    | some c => addPair ref ps c) pairs

/-- `match_candidates_by_distance` (154-212). `allLocated` says that every image has a
representative point (183-186); `query dmax ref k` is the answer of the KD-tree
for the distance bound `dmax` (0 stands for 99999999.0). -/
def matchByDistance (refs cand : List Id) (allLocated : Bool) (query : D → Id → Nat → List Nat)
    (maxNeighbors : Int) (maxDistance : D) [LE D] [Zero D] [DecidableLE D] : List (Id × Id) :=
  if cand.length = 0 then []
  else if maxNeighbors ≤ 0 ∧ maxDistance ≤ 0 then []
  else
    let mn : Int := if maxNeighbors = 0 then 99999999 else maxNeighbors
    let k := (min (cand.length : Int) mn).toNat
    if ¬ allLocated then []
    else refs.foldl (fun ps r => queryLoop cand r (query maxDistance r (if r ∈ cand then k + 1 else k)) ps) []

/-- `match_candidates_by_time` (526-559). -/
def matchByTime (refs cand : List Id) (query : Id → Nat → List Nat) (maxNeighbors : Int) :
    List (Id × Id) :=
  if maxNeighbors ≤ 0 then []
  else
    let k := (min (cand.length : Int) maxNeighbors).toNat
    refs.foldl (fun ps r => queryLoop cand r (query r (if r ∈ cand then k + 1 else k)) ps) []

/-! ### `match_candidates_by_graph` (220-282) -/

/-- `produce_edges` for one vertex pair followed by `pairs.add` (246-252, 267-268, 279-280). -/
def graphEdge (refs cand : List Id) (pairs : List (Id × Id)) (e : Id × Id) : List (Id × Id) :=
  if e.1 = e.2 then pairs
  else if (e.1 ∈ cand ∧ e.2 ∈ refs) ∨ (e.2 ∈ cand ∧ e.1 ∈ refs) then
    pairs.insert (sortedPair e.1 e.2)
  else pairs

/-- `match_candidates_by_graph` (220-282). `edges` are the edges of all triangulations. -/
def matchByGraph (refs cand : List Id) (edges : List (Id × Id)) (rounds : Int) : List (Id × Id) :=
  if cand.length < 4 ∨ rounds < 1 then []
  else edges.foldl (graphEdge refs cand) []

/-! ### Neighbour lists (471-490, 764-795) -/

/-- One entry of the distance results: neighbour image and distance. -/
abbrev Entry (Id D : Type) := Id × D

/-- Body of the loop of `pairs_from_neighbors` (779-789), over the neighbours in increasing order
of distance. -/
def neighborLoop [DecidableEq C] (cam : Id → C) (image : Id) (n : Nat) :
    List (Entry Id D) → List (Entry Id D) → List (Entry Id D) → List (Entry Id D) × List (Entry Id D)
  | [], same, other => (same, other)
  | e :: es, same, other =>
    let same' := if cam e.1 = cam image then (if same.length < n then same ++ [e] else same) else same
    let other' := if cam e.1 = cam image then other
      else (if other.length < n then other ++ [e] else other)
    if same'.length + other'.length ≥ 2 * n then (same', other')
    else neighborLoop cam image n es same' other'

/-- `pairs[sorted(image, im2)] = d` for a list of neighbours (791-793, 488-489). -/
def putPairs (image : Id) (d : Dict (Id × Id) D) (es : List (Entry Id D)) : Dict (Id × Id) D :=
  es.foldl (fun d e => d.set (sortedPair image e.1) e.2) d

/-- `pairs_from_neighbors` (764-795). `ordered` lists (other, distances) along `order`. -/
def pairsFromNeighbors [DecidableEq C] (cam : Id → C) (image : Id) (n : Nat)
    (ordered : List (Entry Id D)) : Dict (Id × Id) D :=
  let r := neighborLoop cam image n ordered [] []
  putPairs image [] (r.1 ++ r.2)

/-- `construct_pairs` (471-490) for one result (image, neighbours with distances); `argsort` is the
reordering by `np.argsort`. `dict.update` is iterated assignment. -/
def constructOne [DecidableEq C] (argsort : List (Entry Id D) → List (Entry Id D)) (cam : Id → C)
    (n : Nat) (enforce : Bool) (pairs : Dict (Id × Id) D) (r : Id × List (Entry Id D)) :
    Dict (Id × Id) D :=
  let order := argsort r.2
  if enforce then
    (pairsFromNeighbors cam r.1 n order).foldl (fun d kv => d.set kv.1 kv.2) pairs
  else putPairs r.1 pairs (order.take n)

/-- `construct_pairs` (471-490). -/
def constructPairs [DecidableEq C] (argsort : List (Entry Id D) → List (Entry Id D)) (cam : Id → C)
    (n : Nat) (enforce : Bool) (results : List (Id × List (Entry Id D))) : Dict (Id × Id) D :=
  results.foldl (constructOne argsort cam n enforce) []

/-! ### BoW / VLAD candidates (285-468, 690-707) -/

/-- One step of the loop of `preempt_candidates` over the GPS pairs (457-461). -/
def preemptStep (refs : List Id) (d : Dict Id (List Id)) (p : Id × Id) : Dict Id (List Id) :=
  let d := if p.1 ∈ refs then Dict.push d p.1 p.2 else d
  if p.2 ∈ refs then Dict.push d p.2 p.1 else d

/-- `{im: images_cand for im in images_ref}` (416, 446). -/
def everyone (refs cand : List Id) : Dict Id (List Id) :=
  refs.foldl (fun (d : Dict Id (List Id)) im => Dict.set d im cand) []

/-- `preempt_candidates` (433-468) without the set of histograms to load. -/
def preemptCandidates (refs cand : List Id) (limited : Bool) (gpsPairs : List (Id × Id)) :
    Dict Id (List Id) :=
  if limited then gpsPairs.foldl (preemptStep refs) []
  else everyone refs cand

/-- `bow_distances` / `vlad_distances` (690-707, vlad.py): distances to the other candidates that
have a histogram (`dist im im2 = none` when one of the two has none). -/
def affinity (dist : Id → Id → Option D) (im : Id) (others : List Id) : Id × List (Entry Id D) :=
  (im, others.filterMap (fun im2 => if im2 ≠ im then (dist im im2).map (fun d => (im2, d)) else none))

/-- Parameters of the BoW (or VLAD) strategy. -/
structure AffinityConfig (D : Type) where
  neighbors : Int
  gpsDistance : D
  gpsNeighbors : Int
  enforce : Bool
  /-- `vlad`: fall back to all candidates when GPS selects none (412-417) -/
  fallback : Bool

/-- `match_candidates_with_bow` / `_with_vlad` (285-430). -/
def matchByAffinity [DecidableEq C] [LinearOrder D] [Zero D]
    (argsort : List (Entry Id D) → List (Entry Id D)) (cam : Id → C)
    (dist : Id → Id → Option D) (allLocated : Bool) (query : D → Id → Nat → List Nat)
    (refs cand : List Id) (cfg : AffinityConfig D) : Dict (Id × Id) D :=
  if cfg.neighbors ≤ 0 then []
  else
    let pre := preemptCandidates refs cand (0 < cfg.gpsDistance ∨ 0 < cfg.gpsNeighbors)
      (matchByDistance refs cand allLocated query cfg.gpsNeighbors cfg.gpsDistance)
    let pre := if cfg.fallback ∧ pre.length = 0 then everyone refs cand else pre
    constructPairs argsort cam cfg.neighbors.toNat cfg.enforce (pre.map (fun e => affinity dist e.1 e.2))

/-! ### `match_candidates_from_metadata` (581-687) -/

/-- The values read from the configuration (597-609). -/
structure Config (D : Type) where
  gpsDistance : D
  gpsNeighbors : Int
  graphRounds : Int
  timeNeighbors : Int
  orderNeighbors : Int
  bow : AffinityConfig D
  vlad : AffinityConfig D

/-- Everything external: geometry queries and distances. -/
structure Oracle (Id D C : Type) where
  allLocated : Bool
  distanceQuery : D → Id → Nat → List Nat
  timeQuery : Id → Nat → List Nat
  edges : List (Id × Id)
  argsort : List (Entry Id D) → List (Entry Id D)
  cam : Id → C
  bowDist : Id → Id → Option D
  vladDist : Id → Id → Option D

/-- Disabling of the GPS strategies when an image has no GPS (614-621). -/
def disableGps [Zero D] (allHaveGps : Bool) (c : Config D) : Config D :=
  if allHaveGps then c else { c with gpsDistance := 0, gpsNeighbors := 0, graphRounds := 0 }

/-- The chained comparison (625-634). -/
def allOff [Zero D] [DecidableEq D] (c : Config D) : Bool :=
  c.gpsDistance = 0 ∧ c.gpsNeighbors = 0 ∧ c.timeNeighbors = 0 ∧ c.orderNeighbors = 0 ∧
    c.bow.neighbors = 0 ∧ c.vlad.neighbors = 0 ∧ c.graphRounds = 0

/-- All reference x candidate pairs (642). -/
def allPairs (refs cand : List Id) : List (Id × Id) :=
  refs.foldl (fun ps i => cand.foldl (addPair i) ps) []

/-- The pairs of each strategy (644-674): distance, graph, time, order, bow, vlad. -/
def strategyPairs [LinearOrder D] [Zero D] [DecidableEq C] (o : Oracle Id D C) (refs cand : List Id)
    (c : Config D) : List (List (Id × Id)) :=
  [ matchByDistance refs cand o.allLocated o.distanceQuery c.gpsNeighbors c.gpsDistance,
    matchByGraph refs cand o.edges c.graphRounds,
    matchByTime refs cand o.timeQuery c.timeNeighbors,
    matchByOrder refs cand c.orderNeighbors,
    (matchByAffinity o.argsort o.cam o.bowDist o.allLocated o.distanceQuery refs cand c.bow).keys,
    (matchByAffinity o.argsort o.cam o.vladDist o.allLocated o.distanceQuery refs cand c.vlad).keys ]

/-- The set of pairs before ordering (625-675). `images_ref` is sorted in place first (623);
`sort` is the result of sorting (any list with the same members is allowed by the theorems). -/
def candidateSet [LinearOrder D] [Zero D] [DecidableEq C] (o : Oracle Id D C) (refs cand : List Id)
    (c : Config D) : List (Id × Id) :=
  if allOff c then allPairs refs cand
  else (strategyPairs o refs cand c).foldl (fun acc ps => ps.foldl (fun a p => a.insert p) acc) []

/-- `match_candidates_from_metadata` (581-687), without the report. `refs` is `images_ref` after the
in-place sort (623); `refSet` is `set(images_ref)` in the arbitrary order of Python's set. -/
def matchFromMetadata [LinearOrder D] [Zero D] [DecidableEq C] (o : Oracle Id D C)
    (picks : Nat → Nat) (refSet refs cand : List Id) (allHaveGps : Bool) (c : Config D) :
    Option (List (Id × Id)) :=
  orderedPairs picks (candidateSet o refs cand (disableGps allHaveGps c)) refSet

end Verif.PairsSelection
