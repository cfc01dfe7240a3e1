import Verif.Model.Gcp
import Mathlib.Data.List.Basic
import Mathlib.Tactic.Ring
import Mathlib.Tactic.NormNum

/-!
# Ground control points: the list file (C50) and the JSON file (C51)
-/
set_option linter.unusedSectionVars false
set_option linter.unusedSimpArgs false
namespace Verif.Gcp
open Verif.PyText

/-! ## Specification of C50 -/

/-- The two lines give the same known position. -/
def SamePos (x y : Entry) : Prop :=
  ∃ a b c : ℚ, x.e = some a ∧ x.n = some b ∧ x.alt = some c ∧ y.e = some a ∧ y.n = some b ∧
    y.alt = some c

theorem keyEq_iff (x y : Entry) : keyEq x.key y.key = true ↔ SamePos x y := by
  unfold keyEq SamePos Entry.key feq
  cases x.e <;> cases y.e <;> cases x.n <;> cases y.n <;> cases x.alt <;> cases y.alt <;> simp
  constructor
  · rintro ⟨⟨rfl, rfl⟩, rfl⟩; exact ⟨rfl, rfl, rfl⟩
  · rintro ⟨rfl, rfl, rfl⟩; exact ⟨⟨rfl, rfl⟩, rfl⟩

instance (x y : Entry) : Decidable (SamePos x y) := decidable_of_iff _ (keyEq_iff x y)

theorem SamePos.symm {x y : Entry} (h : SamePos x y) : SamePos y x := by
  obtain ⟨a, b, c, h1, h2, h3, h4, h5, h6⟩ := h
  exact ⟨a, b, c, h4, h5, h6, h1, h2, h3⟩

theorem SamePos.trans {x y z : Entry} (h : SamePos x y) (h' : SamePos y z) : SamePos x z := by
  obtain ⟨a, b, c, h1, h2, h3, h4, h5, h6⟩ := h
  obtain ⟨a', b', c', g1, g2, g3, g4, g5, g6⟩ := h'
  rw [h4] at g1; rw [h5] at g2; rw [h6] at g3
  cases g1; cases g2; cases g3
  exact ⟨a, b, c, h1, h2, h3, g4, g5, g6⟩

/-- The lines that give a position not given by an earlier line, in order. -/
def firsts : List Entry → List Entry
  | [] => []
  | x :: l => x :: (firsts l).filter (fun y => ¬ SamePos x y)

/-- The lines about the point that line `x` is about: those with the same position. A line with an
unknown (NaN) coordinate is on its own. -/
def sharing (l : List Entry) (x : Entry) : List Entry :=
  if SamePos x x then l.filter (fun y => SamePos x y) else [x]

/-- The lines whose image is in the data set. -/
def known (exifs : Dict String (ℕ × ℕ)) (l : List Entry) : List Entry :=
  l.filter (fun x => exifs.has x.shot)

/-- The observation a line stands for: its image and the pixel position in normalised coordinates. -/
def observation (exifs : Dict String (ℕ × ℕ)) (x : Entry) : GObs Flt :=
  let d := (exifs.get? x.shot).getD (0, 0)
  { shot := x.shot
    projection := (x.px.map (fun u => (u + 1 / 2 - (d.1 : ℚ) / 2) / ((max d.1 d.2 : ℕ) : ℚ)),
      x.py.map (fun v => (v + 1 / 2 - (d.2 : ℚ) / 2) / ((max d.1 d.2 : ℕ) : ℚ))) }

/-- The point that line `x` introduces as number `i`, with its observations. -/
def expected (t : Option (Flt → Flt → Flt × Flt)) (i : ℕ) (x : Entry) (obs : List (GObs Flt)) :
    Point Flt where
  id := String.ofList ("unnamed-".toList ++ Text.fmtNat i)
  hasAltitude := x.alt.isSome
  lla :=
    let ll := match t with
      | some t => t x.e x.n
      | none => (x.n, x.e)
    [("latitude", ll.1), ("longitude", ll.2), ("altitude", some (x.alt.getD 0))]
  obs := obs

/-! ## Proof of the grouping -/

theorem firsts_snoc (l : List Entry) (x : Entry) :
    firsts (l ++ [x]) = if ∃ y ∈ l, SamePos y x then firsts l else firsts l ++ [x] := by
  induction l with
  | nil => simp [firsts]
  | cons y l ih =>
    simp only [List.cons_append, firsts, ih, List.mem_cons, exists_eq_or_imp]
    by_cases h1 : ∃ z ∈ l, SamePos z x
    · simp [h1]
    · by_cases h2 : SamePos y x
      · simp [h1, h2]
      · simp [h1, h2]

theorem mem_firsts_of {l : List Entry} {x y : Entry} (hy : y ∈ l) (hs : SamePos y x) :
    ∃ z ∈ firsts l, SamePos z x := by
  induction l with
  | nil => cases hy
  | cons w l ih =>
    simp only [firsts]
    by_cases hw : SamePos w x
    · exact ⟨w, by simp, hw⟩
    · have hy' : y ∈ l := by
        rcases List.mem_cons.1 hy with rfl | h
        · exact absurd hs hw
        · exact h
      obtain ⟨z, hz, hzs⟩ := ih hy'
      refine ⟨z, List.mem_cons_of_mem _ (List.mem_filter.2 ⟨hz, ?_⟩), hzs⟩
      simp only [decide_eq_true_eq]
      exact fun h => hw (h.trans hzs)

theorem mem_of_mem_firsts {l : List Entry} {x : Entry} (h : x ∈ firsts l) : x ∈ l := by
  induction l with
  | nil => cases h
  | cons y l ih =>
    simp only [firsts, List.mem_cons, List.mem_filter] at h
    rcases h with rfl | ⟨h, -⟩
    · simp
    · simp [ih h]

theorem firsts_pairwise (l : List Entry) : (firsts l).Pairwise (fun x y => ¬ SamePos x y) := by
  induction l with
  | nil => exact .nil
  | cons y l ih =>
    refine List.Pairwise.cons ?_ (ih.filter _)
    intro z hz
    simpa using (List.mem_filter.1 hz).2

theorem sharing_snoc (l : List Entry) (x z : Entry) :
    sharing (l ++ [x]) z = if SamePos z x then sharing l z ++ [x] else sharing l z := by
  unfold sharing
  by_cases h : SamePos z z
  · by_cases hx : SamePos z x <;> simp [h, hx]
  · have : ¬ SamePos z x := fun hx => h (hx.trans hx.symm)
    simp [h, this]

/-- The dictionary after the lines `l`. -/
def table (t : Option (Flt → Flt → Flt × Flt)) (exifs : Dict String (ℕ × ℕ)) (l : List Entry) :
    List (Key × Point Flt) :=
  (firsts l).zipIdx.map (fun q =>
    (q.1.key, expected t q.2 q.1 ((sharing l q.1).map (observation exifs))))

theorem newObs_eq {exifs : Dict String (ℕ × ℕ)} {x : Entry} {d : ℕ × ℕ}
    (h : exifs.get? x.shot = some d) : newObs d x = observation exifs x := by
  unfold newObs observation normalizeF ImageCoords.normalize
  simp [h]

theorem newPoint_eq (t : Option (Flt → Flt → Flt × Flt)) (i : ℕ) (x : Entry) :
    newPoint t i x = expected t i x [] := by
  unfold newPoint expected newLla unnamed
  cases x.alt <;> cases t <;> rfl

theorem addObs_expected (t : Option (Flt → Flt → Flt × Flt)) (i : ℕ) (x : Entry)
    (l : List (GObs Flt)) (o : GObs Flt) : addObs o (expected t i x l) = expected t i x (l ++ [o]) := rfl

theorem addTo_map {α : Type} {l : List α} (key : α → Key) (val : α → Point Flt) (k : Key) (o : GObs Flt)
    (hp : l.Pairwise (fun a b => ¬ (keyEq (key a) k = true ∧ keyEq (key b) k = true))) :
    addTo k o (l.map (fun a => (key a, val a))) =
      l.map (fun a => (key a, if keyEq (key a) k then addObs o (val a) else val a)) := by
  induction l with
  | nil => rfl
  | cons a l ih =>
    rw [List.pairwise_cons] at hp
    simp only [List.map_cons, addTo]
    by_cases h : keyEq (key a) k = true
    · simp only [h, if_true]
      congr 1
      refine List.map_congr_left fun b hb => ?_
      have : ¬ keyEq (key b) k = true := fun hb' => hp.1 b hb ⟨h, hb'⟩
      simp [this]
    · simp only [h, Bool.false_eq_true, if_false]
      rw [ih hp.2]

theorem lineStep_table (flt : List Char → Option Flt) (t : Option (Flt → Flt → Flt × Flt))
    (exifs : Dict String (ℕ × ℕ)) (l : List Entry) (line : List Char) (x : Entry)
    (hx : parseLine flt line = some x) :
    lineStep flt t exifs (table t exifs l) line =
      some (table t exifs (l ++ if exifs.has x.shot then [x] else [])) := by
  unfold lineStep
  rw [hx]
  simp only
  cases hg : exifs.get? x.shot with
  | none => simp [Dict.has, hg]
  | some d =>
    simp only [Dict.has, hg, Option.isSome_some, if_true]
    rw [newObs_eq hg]
    have hany : (table t exifs l).any (fun q => keyEq q.1 x.key) = true ↔ ∃ y ∈ l, SamePos y x := by
      simp only [table, List.any_map, List.any_eq_true, Function.comp, keyEq_iff, Prod.exists]
      constructor
      · rintro ⟨y, i, hy, hs⟩
        exact ⟨y, mem_of_mem_firsts (List.fst_mem_of_mem_zipIdx hy), hs⟩
      · rintro ⟨y, hy, hs⟩
        obtain ⟨z, hz, hzs⟩ := mem_firsts_of hy hs
        obtain ⟨i, hi, rfl⟩ := List.mem_iff_getElem.1 hz
        exact ⟨_, i, List.mk_mem_zipIdx_iff_getElem?.2 (List.getElem?_eq_getElem hi), hzs⟩
    by_cases hs : ∃ y ∈ l, SamePos y x
    · rw [if_pos (hany.2 hs)]
      congr 1
      unfold table
      rw [firsts_snoc, if_pos hs]
      rw [addTo_map (l := (firsts l).zipIdx) (fun q => q.1.key)
        (fun q => expected t q.2 q.1 ((sharing l q.1).map (observation exifs)))]
      · refine List.map_congr_left fun q _ => ?_
        rw [sharing_snoc]
        by_cases hq : SamePos q.1 x
        · have := (keyEq_iff _ _).2 hq
          rw [if_pos this, if_pos hq, addObs_expected, List.map_append]
          rfl
        · have := mt (keyEq_iff _ _).1 hq
          rw [if_neg this, if_neg hq]
      · have hp := firsts_pairwise l
        rw [← List.zipIdx_map_fst 0 (firsts l), List.pairwise_map] at hp
        refine hp.imp ?_
        intro a b hab hk
        rw [keyEq_iff, keyEq_iff] at hk
        exact hab (hk.1.trans hk.2.symm)
    · rw [if_neg (mt hany.1 hs)]
      congr 1
      have e : table t exifs (l ++ [x]) =
          table t exifs l ++ [(x.key, expected t (firsts l).length x [observation exifs x])] := by
        unfold table
        rw [firsts_snoc, if_neg hs, List.zipIdx_append, List.map_append]
        congr 1
        · refine List.map_congr_left fun q hq => ?_
          rw [sharing_snoc, if_neg]
          exact fun h => hs ⟨q.1, mem_of_mem_firsts (List.fst_mem_of_mem_zipIdx hq), h⟩
        · have : sharing (l ++ [x]) x = [x] := by
            rw [sharing_snoc]
            unfold sharing
            by_cases h : SamePos x x
            · have : l.filter (fun y => SamePos x y) = [] := by
                rw [List.filter_eq_nil_iff]
                intro y hy
                simp only [decide_eq_true_eq]
                exact fun h' => hs ⟨y, hy, h'.symm⟩
              simp [h, this]
            · simp [h]
          rw [List.zipIdx_singleton, List.map_singleton]
          simp only [this, Nat.zero_add, List.map_cons, List.map_nil]
      have hlen : (table t exifs l).length = (firsts l).length := by
        unfold table; rw [List.length_map, List.length_zipIdx]
      rw [e, newPoint_eq, addObs_expected, hlen, List.nil_append]

/-- C50. Reading the lines of a list file. If every line is well formed the points are: one for each position
not seen on an earlier line (only lines whose image is in the data set count), numbered in order of
appearance, with all the observations made at that position, in the order of the file. -/
theorem C50_grouping (flt : List Char → Option Flt) (t : Option (Flt → Flt → Flt × Flt))
    (exifs : Dict String (ℕ × ℕ)) (lines : List (List Char)) (es : List Entry)
    (h : List.Forall₂ (fun l x => parseLine flt l = some x) lines es) :
    readLines flt t exifs lines = some ((firsts (known exifs es)).zipIdx.map (fun q =>
      expected t q.2 q.1 ((sharing (known exifs es) q.1).map (observation exifs)))) := by
  have key : ∀ pre, lines.foldlM (lineStep flt t exifs) (table t exifs (known exifs pre)) =
      some (table t exifs (known exifs (pre ++ es))) := by
    induction h with
    | nil => intro pre; simp
    | @cons a b l js hab _ ih =>
      intro pre
      rw [List.foldlM_cons, lineStep_table flt t exifs _ a b hab]
      have : known exifs pre ++ (if exifs.has b.shot then [b] else []) = known exifs (pre ++ [b]) := by
        simp [known, List.filter_append, List.filter_cons]
      rw [this]
      show List.foldlM (lineStep flt t exifs) (table t exifs (known exifs (pre ++ [b]))) l = _
      rw [ih (pre ++ [b])]
      simp
  have := key []
  simp only [List.nil_append] at this
  have h0 : table t exifs (known exifs []) = [] := rfl
  rw [h0] at this
  unfold readLines
  rw [this]
  simp [table, Function.comp_def]

/-- C50. A line that is not well formed makes the whole file unreadable, even if its image is not part of
the data set. -/
theorem C50_malformed (flt : List Char → Option Flt) (t : Option (Flt → Flt → Flt × Flt))
    (exifs : Dict String (ℕ × ℕ)) (lines : List (List Char)) (l : List Char) (hl : l ∈ lines)
    (h : parseLine flt l = none) : readLines flt t exifs lines = none := by
  have : ∀ st, lines.foldlM (lineStep flt t exifs) st = none := by
    induction lines with
    | nil => cases hl
    | cons a ls ih =>
      intro st
      rw [List.foldlM_cons]
      rcases List.mem_cons.1 hl with rfl | hl
      · have : lineStep flt t exifs st l = none := by unfold lineStep; rw [h]
        rw [this]; rfl
      · cases lineStep flt t exifs st a with
        | none => rfl
        | some st' => exact ih hl st'
  unfold readLines
  rw [this]; rfl

theorem zipIdx_getElem? {α : Type} (l : List α) (i : ℕ) : l.zipIdx[i]? = (l[i]?).map (fun a => (a, i)) := by
  rw [List.getElem?_zipIdx]; simp

/-- C50. Every observation of a known image ends up on exactly one point: the points' observations, put
together, are a rearrangement of the observations of the lines. -/
theorem C50_nothing_lost (flt : List Char → Option Flt) (t : Option (Flt → Flt → Flt × Flt))
    (exifs : Dict String (ℕ × ℕ)) (lines : List (List Char)) (es : List Entry)
    (h : List.Forall₂ (fun l x => parseLine flt l = some x) lines es) (pts : List (Point Flt))
    (hp : readLines flt t exifs lines = some pts) :
    (pts.map (fun p => p.obs)).flatten.Perm ((known exifs es).map (observation exifs)) := by
  rw [C50_grouping flt t exifs lines es h] at hp
  cases hp
  generalize known exifs es = l
  rw [List.map_map]
  have e1 : (firsts l).zipIdx.map ((fun p : Point Flt => p.obs) ∘ fun q =>
      expected t q.2 q.1 ((sharing l q.1).map (observation exifs))) =
      (firsts l).map (fun x => (sharing l x).map (observation exifs)) := by
    have : (firsts l).map (fun x => (sharing l x).map (observation exifs)) =
        ((firsts l).zipIdx.map Prod.fst).map (fun x => (sharing l x).map (observation exifs)) := by
      rw [List.zipIdx_map_fst]
    rw [this, List.map_map]
    rfl
  rw [e1]
  have e2 : ((firsts l).map (fun x => (sharing l x).map (observation exifs))).flatten =
      ((firsts l).map (sharing l)).flatten.map (observation exifs) := by
    rw [List.map_flatten, List.map_map]; rfl
  rw [e2]
  refine List.Perm.map _ ?_
  clear e1 e2
  -- induction from the front
  induction l using List.reverseRecOn with
  | nil => simp [firsts]
  | append_singleton l x ih =>
    rw [firsts_snoc]
    by_cases hs : ∃ y ∈ l, SamePos y x
    · rw [if_pos hs]
      obtain ⟨y, hy, hys⟩ := hs
      obtain ⟨z, hz, hzs⟩ := mem_firsts_of hy hys
      obtain ⟨l1, l2, hl⟩ := List.append_of_mem hz
      have hpw := firsts_pairwise l
      rw [hl] at hpw ih ⊢
      have hn1 : ∀ w ∈ l1, ¬ SamePos w x := by
        intro w hw h
        rw [List.pairwise_append] at hpw
        exact hpw.2.2 w hw z (by simp) (h.trans hzs.symm)
      have hn2 : ∀ w ∈ l2, ¬ SamePos w x := by
        intro w hw h
        rw [List.pairwise_append] at hpw
        exact (List.pairwise_cons.1 hpw.2.1).1 w hw (hzs.trans h.symm)
      have c1 : l1.map (sharing (l ++ [x])) = l1.map (sharing l) :=
        List.map_congr_left fun w hw => by rw [sharing_snoc, if_neg (hn1 w hw)]
      have c2 : l2.map (sharing (l ++ [x])) = l2.map (sharing l) :=
        List.map_congr_left fun w hw => by rw [sharing_snoc, if_neg (hn2 w hw)]
      simp only [List.map_append, List.map_cons, List.flatten_append, List.flatten_cons, c1, c2,
        sharing_snoc _ _ z, if_pos hzs] at ih ⊢
      rw [List.append_assoc]
      refine List.Perm.trans ?_ (List.Perm.append_right [x] ih)
      rw [List.append_assoc, List.append_assoc]
      refine List.Perm.append_left _ (List.Perm.append_left _ ?_)
      exact List.perm_append_comm
    · rw [if_neg hs]
      have c1 : (firsts l).map (sharing (l ++ [x])) = (firsts l).map (sharing l) :=
        List.map_congr_left fun w hw => by
          rw [sharing_snoc, if_neg]
          exact fun h => hs ⟨w, mem_of_mem_firsts hw, h⟩
      have c2 : sharing (l ++ [x]) x = [x] := by
        rw [sharing_snoc]
        unfold sharing
        by_cases h : SamePos x x
        · have : l.filter (fun y => SamePos x y) = [] := by
            rw [List.filter_eq_nil_iff]
            intro y hy
            simp only [decide_eq_true_eq]
            exact fun h' => hs ⟨y, hy, h'.symm⟩
          simp [h, this]
        · simp [h]
      rw [List.map_append, List.flatten_append, c1]
      simp only [List.map_cons, List.map_nil, c2, List.flatten_cons, List.flatten_nil, List.append_nil]
      exact ih.append_right _

theorem fmtNat_inj {a b : ℕ} (h : Text.fmtNat a = Text.fmtNat b) : a = b := by
  have h1 := Text.stoi_fmtInt (a : ℤ)
  have h2 := Text.stoi_fmtInt (b : ℤ)
  have e : Text.fmtInt (a : ℤ) = Text.fmtInt (b : ℤ) := by
    show Text.fmtNat a = Text.fmtNat b
    exact h
  rw [e, h2] at h1
  have := Option.some.inj h1
  exact_mod_cast this.symm

theorem unnamed_inj {a b : ℕ} (h : unnamed a = unnamed b) : a = b := by
  have := congrArg String.toList h
  unfold unnamed at this
  simp only [String.toList_ofList] at this
  exact fmtNat_inj (List.append_cancel_left this)

/-- C50. The points read from a list file have different ids. -/
theorem C50_ids (flt : List Char → Option Flt) (t : Option (Flt → Flt → Flt × Flt))
    (exifs : Dict String (ℕ × ℕ)) (lines : List (List Char)) (es : List Entry)
    (h : List.Forall₂ (fun l x => parseLine flt l = some x) lines es) (pts : List (Point Flt))
    (hp : readLines flt t exifs lines = some pts) : (pts.map (fun p => p.id)).Nodup := by
  rw [C50_grouping flt t exifs lines es h] at hp
  cases hp
  rw [List.map_map, List.Nodup, List.pairwise_map]
  have hnd : ((firsts (known exifs es)).zipIdx.map Prod.snd).Nodup := by
    rw [List.zipIdx_map_snd]; exact List.nodup_range'
  rw [List.Nodup, List.pairwise_map] at hnd
  refine hnd.imp ?_
  intro a b hab hid
  exact hab (unnamed_inj hid)

/-- C50. A position whose altitude is unknown (NaN) is never recognised again: each of its lines becomes a
point of its own with a single observation, which is too few to triangulate it. -/
theorem C50_unknown_altitude (flt : List Char → Option Flt) (t : Option (Flt → Flt → Flt × Flt))
    (exifs : Dict String (ℕ × ℕ)) (lines : List (List Char)) (es : List Entry)
    (h : List.Forall₂ (fun l x => parseLine flt l = some x) lines es) (pts : List (Point Flt))
    (hp : readLines flt t exifs lines = some pts) (p : Point Flt) (hpm : p ∈ pts)
    (ha : p.hasAltitude = false) : p.obs.length = 1 := by
  rw [C50_grouping flt t exifs lines es h] at hp
  have hp := Option.some.inj hp
  rw [← hp] at hpm
  obtain ⟨q, -, hq⟩ := List.mem_map.1 hpm
  have h1 : p.hasAltitude = q.1.alt.isSome := by rw [← hq]; rfl
  have h2 : p.obs = (sharing (known exifs es) q.1).map (observation exifs) := by rw [← hq]; rfl
  have : ¬ SamePos q.1 q.1 := by
    rintro ⟨a, b, c, -, -, hc, -⟩
    rw [h1, hc] at ha; cases ha
  rw [h2, sharing, if_neg this]; rfl

/-- C50. A line made of five numbers, the image name and anything after it, separated and surrounded by
white space, is read as those numbers and that name. -/
theorem C50_line (flt : List Char → Option Flt) (sp : Fin 6 → List Char) (w : Fin 6 → List Char)
    (rest : List Char) (v : Fin 5 → Flt)
    (hsp : ∀ i, ∀ c ∈ sp i, pySpace c = true) (hne : ∀ i, i ≠ 0 → sp i ≠ [])
    (hw : ∀ i, w i ≠ [] ∧ ∀ c ∈ w i, pySpace c = false)
    (hr : ∀ c, rest.head? = some c → pySpace c = true)
    (hv : ∀ i : Fin 5, flt (w i.castSucc) = some (v i)) :
    parseLine flt (sp 0 ++ (w 0 ++ (sp 1 ++ (w 1 ++ (sp 2 ++ (w 2 ++ (sp 3 ++ (w 3 ++ (sp 4 ++ (w 4 ++
      (sp 5 ++ (w 5 ++ rest)))))))))))) =
      some ⟨v 0, v 1, v 2, v 3, v 4, String.ofList (w 5)⟩ := by
  have hd : ∀ (i : Fin 6) (tl : List Char), i ≠ 0 → ∀ c, (sp i ++ tl).head? = some c → pySpace c = true := by
    intro i tl hi c hc
    have := hne i hi
    cases h : sp i with
    | nil => exact absurd h this
    | cons a as =>
      rw [h] at hc
      simp at hc
      exact hsp i c (by rw [h]; simp [hc])
  -- the last piece, without the white space at its end
  obtain ⟨tl, hsplit, htl⟩ : ∃ tl, (w 5 ++ rest) = strip (sp 5 ++ (w 5 ++ rest)) ++ tl ∧
      ∀ c ∈ tl, pySpace c = true := by
    refine ⟨((w 5 ++ rest).reverse.takeWhile pySpace).reverse, ?_, ?_⟩
    · unfold strip
      rw [lstrip_append (hsp 5)]
      · unfold rstrip
        rw [← List.reverse_append, List.takeWhile_append_dropWhile, List.reverse_reverse]
      · intro c hc
        cases h : w 5 with
        | nil => exact absurd h (hw 5).1
        | cons a as =>
          rw [h] at hc; simp at hc
          exact (hw 5).2 c (by rw [h]; simp [hc])
    · intro c hc
      rw [List.mem_reverse] at hc
      exact List.all_eq_true.1 List.all_takeWhile c hc
  have hcons : ∃ a as, w 5 = a :: as := by
    cases h : w 5 with
    | nil => exact absurd h (hw 5).1
    | cons a as => exact ⟨a, as, rfl⟩
  -- the stripped piece starts with the name
  have hpre : ∃ r', strip (sp 5 ++ (w 5 ++ rest)) = w 5 ++ r' ∧
      ∀ c, r'.head? = some c → pySpace c = true := by
    have hlen : (w 5).length ≤ (strip (sp 5 ++ (w 5 ++ rest))).length := by
      by_contra hlt
      push_neg at hlt
      have hp : strip (sp 5 ++ (w 5 ++ rest)) <+: w 5 ++ rest := ⟨tl, hsplit.symm⟩
      have hp2 : w 5 <+: w 5 ++ rest := List.prefix_append _ _
      obtain ⟨u, hu⟩ := List.prefix_of_prefix_length_le hp hp2 hlt.le
      have hune : u ≠ [] := by
        rintro rfl
        rw [List.append_nil] at hu
        rw [hu] at hlt
        exact lt_irrefl _ hlt
      have htl2 : tl = u ++ rest := by
        have : strip (sp 5 ++ (w 5 ++ rest)) ++ tl = strip (sp 5 ++ (w 5 ++ rest)) ++ (u ++ rest) := by
          rw [← hsplit, ← List.append_assoc, hu]
        exact List.append_cancel_left this
      cases u with
      | nil => exact hune rfl
      | cons c u =>
        have h1 := htl c (by rw [htl2]; simp)
        have h2 := (hw 5).2 c (by rw [← hu]; simp)
        rw [h1] at h2; cases h2
    have hp : strip (sp 5 ++ (w 5 ++ rest)) <+: w 5 ++ rest := ⟨tl, hsplit.symm⟩
    obtain ⟨r', hr'⟩ := List.prefix_of_prefix_length_le (List.prefix_append (w 5) rest) hp hlen
    refine ⟨r', hr'.symm, ?_⟩
    intro c hc
    refine hr c ?_
    have : w 5 ++ rest = w 5 ++ (r' ++ tl) := by rw [← List.append_assoc, hr', ← hsplit]
    rw [List.append_cancel_left this]
    cases r' with
    | nil => cases hc
    | cons d r' => simpa using hc
  obtain ⟨r', hr', hrh⟩ := hpre
  obtain ⟨a, as, ha⟩ := hcons
  have hne5 : strip (sp 5 ++ (w 5 ++ rest)) ≠ [] := by
    rw [hr', ha]; simp
  have hlast : splitN 0 (sp 5 ++ (w 5 ++ rest)) = [w 5 ++ r'] := by
    simp only [splitN]
    rw [if_neg hne5, hr']
  have hwords : (words (w 5 ++ r')).head? = some (w 5) := by
    unfold words
    have hl : ∃ n, (w 5 ++ r').length = n + 1 := ⟨as.length + r'.length, by
      rw [ha]; simp only [List.length_append, List.length_cons]; omega⟩
    obtain ⟨n, hn⟩ := hl
    rw [hn]
    have := splitN_word (n := n) (sp := []) (by simp) (hw 5).1 (hw 5).2 hrh
    simp only [List.nil_append] at this
    rw [this]; rfl
  have hall : splitN 5 (sp 0 ++ (w 0 ++ (sp 1 ++ (w 1 ++ (sp 2 ++ (w 2 ++ (sp 3 ++ (w 3 ++ (sp 4 ++
      (w 4 ++ (sp 5 ++ (w 5 ++ rest)))))))))))) = [w 0, w 1, w 2, w 3, w 4, w 5 ++ r'] := by
    rw [splitN_word (hsp 0) (hw 0).1 (hw 0).2 (hd 1 _ (by decide)),
      splitN_word (hsp 1) (hw 1).1 (hw 1).2 (hd 2 _ (by decide)),
      splitN_word (hsp 2) (hw 2).1 (hw 2).2 (hd 3 _ (by decide)),
      splitN_word (hsp 3) (hw 3).1 (hw 3).2 (hd 4 _ (by decide)),
      splitN_word (hsp 4) (hw 4).1 (hw 4).2 (hd 5 _ (by decide)), hlast]
  unfold parseLine
  rw [hall]
  simp only [hwords]
  have g0 := hv 0; have g1 := hv 1; have g2 := hv 2; have g3 := hv 3; have g4 := hv 4
  simp only [Fin.castSucc_zero] at g0
  have c1 : (Fin.castSucc 1 : Fin 6) = 1 := rfl
  have c2 : (Fin.castSucc 2 : Fin 6) = 2 := rfl
  have c3 : (Fin.castSucc 3 : Fin 6) = 3 := rfl
  have c4 : (Fin.castSucc 4 : Fin 6) = 4 := rfl
  rw [c1] at g1; rw [c2] at g2; rw [c3] at g3; rw [c4] at g4
  rw [g0, g1, g2, g3, g4]

/-- C50. Blank lines and lines whose first visible character is `#` can be added anywhere without effect. -/
theorem C50_comments (flt : List Char → Option Flt)
    (crs : Crs → Option (Option (Flt → Flt → Flt × Flt))) (exifs : Dict String (ℕ × ℕ))
    (a b : List (List Char)) (line : List Char)
    (h : (∀ c ∈ line, pySpace c = true) ∨
      ∃ sp tl, line = sp ++ '#' :: tl ∧ ∀ c ∈ sp, pySpace c = true) :
    readList flt crs exifs (a ++ line :: b) = readList flt crs exifs (a ++ b) := by
  have hv : validLine line = false := by
    rcases h with h | ⟨sp, tl, rfl, hsp⟩
    · have : strip line = [] := by
        have := strip_surround (sp := line) (w := []) (tl := []) h (by simp) (by simp) (by simp)
        simpa using this
      simp [validLine, this]
    · have : ∃ r, strip (sp ++ '#' :: tl) = '#' :: r := by
        unfold strip
        rw [lstrip_append hsp (by intro c hc; simp at hc; subst hc; decide)]
        unfold rstrip
        have hx : ∀ l : List Char, ∃ r, (l.reverse ++ ['#']).dropWhile pySpace = r ++ ['#'] := by
          intro l
          induction l.reverse with
          | nil => exact ⟨[], by decide⟩
          | cons c m ih =>
            by_cases hc : pySpace c = true
            · obtain ⟨r, hr⟩ := ih
              exact ⟨r, by simp [hc, hr]⟩
            · exact ⟨c :: m, by simp [hc]⟩
        obtain ⟨r, hr⟩ := hx tl
        exact ⟨r.reverse, by rw [List.reverse_cons, hr]; simp⟩
      obtain ⟨r, hr⟩ := this
      simp [validLine, hr]
  unfold readList
  have : (a ++ line :: b).filter validLine = (a ++ b).filter validLine := by
    simp [List.filter_append, List.filter_cons, hv]
  rw [this]

/-- C50. The header `WGS84`. -/
theorem C50_header_wgs84 (sp tl : List Char) (hs : ∀ c ∈ sp, pySpace c = true)
    (ht : ∀ c ∈ tl, pySpace c = true) :
    parseProjection (sp ++ ("WGS84".toList ++ tl)) = some .wgs84 := by
  have : strip (sp ++ ("WGS84".toList ++ tl)) = "WGS84".toList :=
    strip_surround hs ht (by decide) (by decide)
  unfold parseProjection
  rw [if_pos this]

/-- C50. The header `WGS84 UTM <zone>N`, `WGS84 UTM <zone>S` (letters in either case), or without a letter:
zone and hemisphere are read as written, north when there is no letter. -/
theorem C50_header_utm (n : ℕ) (letter : List Char) (north : Bool)
    (hl : (letter = ['N'] ∧ north = true) ∨ (letter = ['n'] ∧ north = true) ∨
      (letter = [] ∧ north = true) ∨ (letter = ['S'] ∧ north = false) ∨
      (letter = ['s'] ∧ north = false))
    (tl : List Char) (ht : ∀ c ∈ tl, pySpace c = true) :
    parseProjection ("WGS84 UTM ".toList ++ (Text.fmtNat n ++ letter ++ tl)) =
      some (.utm n north) := by
  have hch := fmtNat_chars n
  have hne := (Text.fmtNat_spec n).2.1
  have hlet : ∀ c ∈ letter, pySpace c = false := by
    rcases hl with ⟨rfl, -⟩ | ⟨rfl, -⟩ | ⟨rfl, -⟩ | ⟨rfl, -⟩ | ⟨rfl, -⟩ <;> decide
  have hw : ∀ c ∈ Text.fmtNat n ++ letter, pySpace c = false := by
    intro c hc
    rcases List.mem_append.1 hc with hc | hc
    · exact (hch c hc).1
    · exact hlet c hc
  have hzne : Text.fmtNat n ++ letter ≠ [] := by simp [hne]
  have hwords : words ("WGS84 UTM ".toList ++ (Text.fmtNat n ++ letter ++ tl)) =
      ["WGS84".toList, "UTM".toList, Text.fmtNat n ++ letter] := by
    have hlen : ∃ m, ("WGS84 UTM ".toList ++ (Text.fmtNat n ++ letter ++ tl)).length = m + 3 :=
      ⟨7 + (Text.fmtNat n ++ letter ++ tl).length, by
        rw [List.length_append, show "WGS84 UTM ".toList.length = 10 from by decide]; omega⟩
    obtain ⟨m, hm⟩ := hlen
    unfold words
    rw [hm]
    have e : "WGS84 UTM ".toList ++ (Text.fmtNat n ++ letter ++ tl) =
        [] ++ ("WGS84".toList ++ ([' '] ++ ("UTM".toList ++ ([' '] ++
          ((Text.fmtNat n ++ letter) ++ tl))))) := by simp
    rw [e, splitN_word (by simp) (by decide) (by decide) (by simp; decide),
      splitN_word (by simp; decide) (by decide) (by decide) (by simp; decide),
      splitN_word (by simp; decide) hzne hw (by
        intro c hc; exact ht c (List.mem_of_head? hc)), splitN_nil ht]
  have hstrip : strip ("WGS84 UTM ".toList ++ (Text.fmtNat n ++ letter ++ tl)) ≠ "WGS84".toList := by
    have hs : strip ([] ++ (("WGS84 UTM ".toList ++ (Text.fmtNat n ++ letter)) ++ tl)) =
        "WGS84 UTM ".toList ++ (Text.fmtNat n ++ letter) := by
      refine strip_surround (by simp) ht ?_ ?_
      · intro c hc; simp at hc; subst hc; decide
      · intro c hc
        rw [List.getLast?_append_of_ne_nil _ hzne] at hc
        exact hw c (List.mem_of_getLast? hc)
    have e : "WGS84 UTM ".toList ++ (Text.fmtNat n ++ letter ++ tl) =
        [] ++ (("WGS84 UTM ".toList ++ (Text.fmtNat n ++ letter)) ++ tl) := by simp
    rw [e, hs]
    intro h
    have := congrArg List.length h
    simp at this
  have hpre : "WGS84 UTM".toList.isPrefixOf
      (upper ("WGS84 UTM ".toList ++ (Text.fmtNat n ++ letter ++ tl))) = true := by
    unfold upper
    rw [List.map_append, List.isPrefixOf_iff_prefix]
    exact ⟨' ' :: (Text.fmtNat n ++ letter ++ tl).map Char.toUpper, by simp⟩
  unfold parseProjection
  rw [if_neg hstrip, if_pos hpre]
  unfold parseUtm
  rw [hwords]
  simp only
  have hu : upper (Text.fmtNat n ++ letter) = Text.fmtNat n ++ letter.map Char.toUpper := by
    unfold upper
    rw [List.map_append]
    congr 1
    exact upper_fmtNat n
  have hint : pyInt (Text.fmtNat n) = some (n : ℤ) := by
    simpa using pyInt_fmtNat n (sp := []) (tl := []) (by simp) (by simp)
  rw [hu]
  rcases hl with ⟨rfl, rfl⟩ | ⟨rfl, rfl⟩ | ⟨rfl, rfl⟩ | ⟨rfl, rfl⟩ | ⟨rfl, rfl⟩
  · have : ['N'].map Char.toUpper = ['N'] := by decide
    simp [this, hint]
  · have : ['n'].map Char.toUpper = ['N'] := by decide
    simp [this, hint]
  · rw [List.map_nil, List.append_nil]
    cases hgl : (Text.fmtNat n).getLast? with
    | none => simp at hgl; exact absurd hgl hne
    | some c =>
      have hc := hch c (List.mem_of_getLast? hgl)
      split
      · rename_i heq; cases heq; exact absurd rfl hc.2.2.2.2.2.1
      · rename_i heq; cases heq; exact absurd rfl hc.2.2.2.2.2.2.1
      · rw [hint]; rfl
  · have : ['S'].map Char.toUpper = ['S'] := by decide
    simp [this, hint]
  · have : ['s'].map Char.toUpper = ['S'] := by decide
    simp [this, hint]

/-- C50. A whole file: a header naming a coordinate system that pyproj knows, then well-formed lines. -/
theorem C50_file (flt : List Char → Option Flt)
    (crs : Crs → Option (Option (Flt → Flt → Flt × Flt))) (exifs : Dict String (ℕ × ℕ))
    (header : List Char) (c : Crs) (t : Option (Flt → Flt → Flt × Flt)) (lines : List (List Char))
    (es : List Entry) (hc : parseProjection header = some c) (hh : header.head? ≠ some '#')
    (hh2 : ∀ d, header.head? = some d → pySpace d = false) (ht : crs c = some t)
    (h : List.Forall₂ (fun l x => parseLine flt l = some x ∧ validLine l = true) lines es) :
    readList flt crs exifs (header :: lines) = some ((firsts (known exifs es)).zipIdx.map (fun q =>
      expected t q.2 q.1 ((sharing (known exifs es) q.1).map (observation exifs)))) := by
  have hv : validLine header = true := by
    cases header with
    | nil => simp [parseProjection, strip, lstrip, rstrip, upper, List.isPrefixOf] at hc
    | cons d r =>
      have hs : ∃ r', strip (d :: r) = d :: r' := by
        have hd := hh2 d rfl
        unfold strip
        have : lstrip (d :: r) = d :: r := by simp [lstrip, hd]
        rw [this]
        unfold rstrip
        have hx : ∀ l : List Char, ∃ r, (l ++ [d]).dropWhile pySpace = r ++ [d] := by
          intro l
          induction l with
          | nil => exact ⟨[], by simp [hd]⟩
          | cons c m ih =>
            by_cases hc : pySpace c = true
            · obtain ⟨r, hr⟩ := ih
              exact ⟨r, by simp [hc, hr]⟩
            · exact ⟨c :: m, by simp [hc]⟩
        obtain ⟨r', hr'⟩ := hx r.reverse
        exact ⟨r'.reverse, by rw [List.reverse_cons, hr']; simp⟩
      obtain ⟨r', hr'⟩ := hs
      have : d ≠ '#' := by simpa using hh
      simp [validLine, hr', this]
  have hf : (header :: lines).filter validLine = header :: lines := by
    rw [List.filter_cons_of_pos hv]
    congr 1
    rw [List.filter_eq_self]
    intro l hl
    obtain ⟨i, hi, rfl⟩ := List.mem_iff_getElem.1 hl
    exact (List.forall₂_iff_get.1 h).2 i hi ((List.forall₂_iff_get.1 h).1 ▸ hi) |>.2
  unfold readList
  rw [hf]
  simp only [hc, ht]
  exact C50_grouping flt t exifs lines es (h.imp fun _ _ hh => hh.1)

/-- Parses `0`, `1`, `2`, `3` and `NaN`: a number reader for the examples. -/
def demoFlt (w : List Char) : Option Flt :=
  if w = ['0'] then some (some 0) else if w = ['1'] then some (some 1) else if w = ['2'] then some (some 2)
  else if w = ['3'] then some (some 3) else if w = "NaN".toList then some none else none

/-- A file with a comment, a point seen in two images, a point without altitude seen in two images
and a line about an image that is not there: three points. -/
example : (readList demoFlt (fun c => if c = .wgs84 then some none else none)
      [("a.jpg", (4, 2)), ("b.jpg", (4, 2))]
      ["# made by hand".toList, "WGS84".toList, "1 2 3 0 0 a.jpg".toList, "  ".toList,
        "2 2 NaN 0 0 a.jpg gcp7".toList, "2 2 NaN 0 1 b.jpg".toList, "2 3 2 0 1 c.jpg".toList,
        "1 2 3 1 1 b.jpg".toList]).map
      (fun l => l.map (fun p => (p.id, p.hasAltitude, p.obs.map (fun o => o.shot)))) =
    some [("unnamed-0", true, ["a.jpg", "b.jpg"]), ("unnamed-1", false, ["a.jpg"]),
      ("unnamed-2", false, ["b.jpg"])] := by decide +kernel

/-- The hypotheses of the grouping theorems are met by the lines of that file. -/
example : List.Forall₂ (fun l x => parseLine demoFlt l = some x)
    ["1 2 3 0 0 a.jpg".toList, "2 2 NaN 0 0 a.jpg gcp7".toList]
    [⟨some 1, some 2, some 3, some 0, some 0, "a.jpg"⟩,
      ⟨some 2, some 2, none, some 0, some 0, "a.jpg"⟩] :=
  .cons (by decide +kernel) (.cons (by decide +kernel) .nil)

/-! ## C51: the JSON file -/

/-- What the writer needs: a position, if there is one, has a latitude and a longitude, and an
altitude if the point says so. -/
def Writable (p : Point ℚ) : Prop :=
  p.lla = [] ∨ ((p.lla.get? "latitude").isSome ∧ (p.lla.get? "longitude").isSome ∧
    (p.hasAltitude = true → (p.lla.get? "altitude").isSome))

/-- `q` is what a file keeps of `p`: the id, the position as it is used, whether the altitude is
known, and image and projection of every observation, in order. -/
structure Kept (p q : Point ℚ) : Prop where
  id : q.id = p.id
  position : llaVec q = llaVec p
  lat : q.lla.get? "latitude" = p.lla.get? "latitude"
  lon : q.lla.get? "longitude" = p.lla.get? "longitude"
  hasAltitude : p.lla ≠ [] → q.hasAltitude = p.hasAltitude
  obs : q.obs.map (fun o => (o.shot, o.projection)) = p.obs.map (fun o => (o.shot, o.projection))

/-- What is read back. -/
def saved (p : Point ℚ) : Point ℚ where
  id := p.id
  hasAltitude := decide (p.lla ≠ []) && p.hasAltitude
  obs := p.obs.map (fun o => { shot := o.shot, projection := o.projection })
  lla :=
    if p.lla = [] then []
    else [("latitude", (p.lla.get? "latitude").getD 0), ("longitude", (p.lla.get? "longitude").getD 0)] ++
      (if p.hasAltitude then [("altitude", (p.lla.get? "altitude").getD 0)] else [])

theorem obs_roundtrip (o : GObs ℚ) :
    obsFromJson (obsToJson o) = some { shot := o.shot, projection := o.projection } := by
  simp [obsFromJson, obsToJson, J.get?, Dict.get?, J.nums?_ofNums]

theorem obsList_roundtrip (l : List (GObs ℚ)) :
    l.mapM (obsFromJson ∘ obsToJson) =
      some (l.map (fun o => { shot := o.shot, projection := o.projection })) := by
  induction l with
  | nil => rfl
  | cons o l ih => simp [List.mapM_cons, obs_roundtrip, ih]

theorem point_roundtrip (p : Point ℚ) (h : Writable p) :
    ∃ j, pointToJson p = some j ∧ pointFromJson j = some (saved p) := by
  unfold pointToJson positionToJson
  rcases h with h | ⟨h1, h2, h3⟩
  · simp [h, pointFromJson, positionFromJson, J.get?, Dict.get?, obsList_roundtrip, saved]
  · by_cases h0 : p.lla = []
    · simp [h0, pointFromJson, positionFromJson, J.get?, Dict.get?, obsList_roundtrip, saved]
    · obtain ⟨lat, hlat⟩ := Option.isSome_iff_exists.1 h1
      obtain ⟨lon, hlon⟩ := Option.isSome_iff_exists.1 h2
      by_cases ha : p.hasAltitude = true
      · obtain ⟨alt, halt⟩ := Option.isSome_iff_exists.1 (h3 ha)
        simp [h0, hlat, hlon, ha, halt, pointFromJson, positionFromJson, J.get?, Dict.get?, Dict.has,
          obsList_roundtrip, saved, llaFromJson, J.num?]
      · simp [h0, hlat, hlon, ha, pointFromJson, positionFromJson, J.get?, Dict.get?, Dict.has,
          obsList_roundtrip, saved, llaFromJson, J.num?]

theorem saved_kept (p : Point ℚ) (h : Writable p) : Kept p (saved p) := by
  have hobs : (saved p).obs.map (fun o => (o.shot, o.projection)) =
      p.obs.map (fun o => (o.shot, o.projection)) := by simp [saved]
  rcases h with h | ⟨h1, h2, h3⟩
  · refine ⟨rfl, ?_, ?_, ?_, fun hne => absurd h hne, hobs⟩ <;> simp [saved, h, llaVec, Dict.get?]
  · by_cases h0 : p.lla = []
    · refine ⟨rfl, ?_, ?_, ?_, fun hne => absurd h0 hne, hobs⟩ <;> simp [saved, h0, llaVec, Dict.get?]
    · obtain ⟨lat, hlat⟩ := Option.isSome_iff_exists.1 h1
      obtain ⟨lon, hlon⟩ := Option.isSome_iff_exists.1 h2
      by_cases ha : p.hasAltitude = true
      · obtain ⟨alt, halt⟩ := Option.isSome_iff_exists.1 (h3 ha)
        refine ⟨rfl, ?_, ?_, ?_, fun _ => by simp [saved, h0], hobs⟩ <;>
          simp [saved, h0, llaVec, Dict.get?, hlat, hlon, halt, ha]
      · refine ⟨rfl, ?_, ?_, ?_, fun _ => by simp [saved, h0], hobs⟩ <;>
          simp [saved, h0, llaVec, Dict.get?, hlat, hlon, ha]

/-- C51. Writing a list of points and reading the file gives the same points, in the same order, as
far as a file keeps them. -/
theorem C51_roundtrip (l : List (Point ℚ)) (h : ∀ p ∈ l, Writable p) :
    ∃ j l', writePoints l = some j ∧ readPoints j = some l' ∧ List.Forall₂ Kept l l' := by
  have key : ∃ js, l.mapM pointToJson = some js ∧ js.mapM pointFromJson = some (l.map saved) ∧
      List.Forall₂ Kept l (l.map saved) := by
    induction l with
    | nil => exact ⟨[], rfl, rfl, .nil⟩
    | cons p l ih =>
      obtain ⟨j, e1, e2⟩ := point_roundtrip p (h p (by simp))
      obtain ⟨js, f1, f2, f3⟩ := ih (fun q hq => h q (by simp [hq]))
      refine ⟨j :: js, ?_, ?_, .cons (saved_kept p (h p (by simp))) f3⟩
      · simp [List.mapM_cons, e1, f1]
      · simp [List.mapM_cons, e2, f2]
  obtain ⟨js, e1, e2, e3⟩ := key
  refine ⟨.obj [("points", .arr js)], l.map saved, ?_, ?_, e3⟩
  · unfold writePoints; rw [e1]; rfl
  · simp [readPoints, J.get?, Dict.get?, e2]

/-- C51. Only such lists can be written: a position without latitude or longitude, or without the
altitude the point claims to have, raises before anything is written. -/
theorem C51_refused (l : List (Point ℚ)) : (∃ j, writePoints l = some j) ↔ ∀ p ∈ l, Writable p := by
  constructor
  · rintro ⟨j, hj⟩
    unfold writePoints at hj
    obtain ⟨js, hjs, -⟩ := Option.map_eq_some_iff.1 hj
    clear hj
    induction l generalizing js with
    | nil => intro p hp; cases hp
    | cons q l ih =>
      rw [List.mapM_cons] at hjs
      obtain ⟨a, ha, hjs⟩ := Option.bind_eq_some_iff.1 hjs
      obtain ⟨as, has, -⟩ := Option.bind_eq_some_iff.1 hjs
      intro p hp
      rcases List.mem_cons.1 hp with rfl | hp
      · obtain ⟨pos, hpos, -⟩ := Option.map_eq_some_iff.1 ha
        unfold positionToJson at hpos
        by_cases h0 : p.lla = []
        · exact .inl h0
        · right
          rw [if_neg h0] at hpos
          cases h1 : p.lla.get? "latitude" <;> cases h2 : p.lla.get? "longitude" <;>
            simp only [h1, h2] at hpos <;> try cases hpos
          refine ⟨rfl, rfl, fun ha => ?_⟩
          rw [if_pos ha] at hpos
          cases h3 : p.lla.get? "altitude"
          · simp [h3] at hpos
          · rfl
      · exact ih as has p hp
  · intro h
    obtain ⟨j, -, hj, -⟩ := C51_roundtrip l h
    exact ⟨j, hj⟩

/-- C51. A point with a full position, default survey id and role, and observations without uid comes back
unchanged. -/
theorem C51_lossless (id : String) (lat lon alt : ℚ) (obs : List (GObs ℚ)) (hobs : ∀ o ∈ obs, o.uid = 0) :
    ∃ j, writePoints [{ id := id, hasAltitude := true, obs := obs
                        lla := [("latitude", lat), ("longitude", lon), ("altitude", alt)] }] = some j ∧
      readPoints j = some [{ id := id, hasAltitude := true, obs := obs
                             lla := [("latitude", lat), ("longitude", lon), ("altitude", alt)] }] := by
  have ho : obs.map (fun o => ({ shot := o.shot, projection := o.projection } : GObs ℚ)) = obs := by
    conv => rhs; rw [← List.map_id obs]
    refine List.map_congr_left fun o ho => ?_
    have := hobs o ho
    cases o; simp_all
  refine ⟨_, rfl, ?_⟩
  simp [readPoints, J.get?, Dict.get?, pointFromJson, positionFromJson, llaFromJson, Dict.has, J.num?,
    obsList_roundtrip, ho]

/-- C51. What a file does not keep: the survey point id and the role of a point and the uids of its
observations always come back as the defaults. -/
theorem C51_lost (j : J) (l' : List (Point ℚ)) (hr : readPoints j = some l') :
    ∀ p ∈ l', p.surveyId = 0 ∧ p.role = .optimization ∧ ∀ o ∈ p.obs, o.uid = 0 := by
  have obs0 : ∀ (os : List J) (r : List (GObs ℚ)), os.mapM obsFromJson = some r → ∀ o ∈ r, o.uid = 0 := by
    intro os
    induction os with
    | nil => intro r hr o ho; cases hr; cases ho
    | cons a os ih =>
      intro r hr o ho
      rw [List.mapM_cons] at hr
      obtain ⟨x, hx, hr⟩ := Option.bind_eq_some_iff.1 hr
      obtain ⟨xs, hxs, hr⟩ := Option.bind_eq_some_iff.1 hr
      cases hr
      rcases List.mem_cons.1 ho with rfl | ho
      · unfold obsFromJson at hx
        split at hx
        · split at hx
          · cases hx; rfl
          · split at hx
            · cases hx; rfl
            · cases hx
        · cases hx
      · exact ih xs hxs o ho
  unfold readPoints at hr
  split at hr
  · rename_i js hj
    clear hj
    induction js generalizing l' with
    | nil => cases hr; intro p hp; cases hp
    | cons a js ih =>
      rw [List.mapM_cons] at hr
      obtain ⟨x, hx, hr⟩ := Option.bind_eq_some_iff.1 hr
      obtain ⟨xs, hxs, hr⟩ := Option.bind_eq_some_iff.1 hr
      cases hr
      intro p hp
      rcases List.mem_cons.1 hp with rfl | hp
      · unfold pointFromJson at hx
        split at hx
        · obtain ⟨os, hos, rfl⟩ := Option.map_eq_some_iff.1 hx
          exact ⟨rfl, rfl, obs0 _ os hos⟩
        · cases hx
      · exact ih xs hxs p hp
  · cases hr

example : Writable { id := "g", lla := [("latitude", 1), ("longitude", 2)] } := by
  right; decide +kernel

end Verif.Gcp
