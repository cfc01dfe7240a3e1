import Verif.Model.FeaturePlan
import Mathlib.Tactic.Linarith
import Mathlib.Tactic.NormNum
import Mathlib.Tactic.Ring
import Mathlib.Tactic.Positivity
import Mathlib.Tactic.FieldSimp

/-!
# C136 — The memory plan of feature extraction
-/
set_option linter.unusedVariables false
namespace Verif.FeaturePlan

theorem foldl_size (l : List (ℕ × ℕ)) (a : ℝ) : l.foldl (fun acc c => acc + cameraSize c) a = a + (l.map fun c => (c.1 : ℝ) * c.2 * 4 / 1024 / 1024).sum := by
  induction l generalizing a with
  | nil => simp
  | cons c l ih => rw [List.foldl_cons, ih]; simp [cameraSize]; ring

/-- C136: the average image size is 0 without cameras, and otherwise n times it is the sum of four times the pixels of the n camera models over 2^20
(one weight for each camera model, however many images it has). -/
theorem C136_image_size (cams : List (ℕ × ℕ)) :
    (cams = [] → averageImageSize cams = 0) ∧
    averageImageSize cams * cams.length = (cams.map fun c => (4 * c.1 * c.2 : ℝ) / 2 ^ 20).sum := by
  have e : (cams.map fun c : ℕ × ℕ => (c.1 : ℝ) * c.2 * 4 / 1024 / 1024) = cams.map fun c => (4 * c.1 * c.2 : ℝ) / 2 ^ 20 := by
    apply List.map_congr_left; intro c _; norm_num; ring
  constructor
  · rintro rfl; simp [averageImageSize]
  · unfold averageImageSize
    rw [foldl_size, zero_add, e]
    cases cams with
    | nil => simp
    | cons c l =>
      have h : (max 1 (c :: l).length) = (c :: l).length := by simp
      have h' : ((max 1 (c :: l).length : ℕ) : ℝ) = ((c :: l).length : ℝ) := by rw [h]
      push_cast at h'
      have hp : ((c :: l).length : ℝ) ≠ 0 := by simp; positivity
      first
        | rw [h', div_mul_cancel₀ _ hp]
        | (push_cast; rw [h', div_mul_cancel₀ _ hp])

theorem size_nonneg (cams : List (ℕ × ℕ)) : 0 ≤ averageImageSize cams := by
  unfold averageImageSize
  rw [foldl_size, zero_add]
  apply div_nonneg
  · apply List.sum_nonneg
    intro x hx
    obtain ⟨c, _, rfl⟩ := List.mem_map.1 hx
    positivity
  · positivity

theorem size_pos (cams : List (ℕ × ℕ)) (h : ∃ c ∈ cams, 0 < c.1 ∧ 0 < c.2) : 0 < averageImageSize cams := by
  obtain ⟨c, hc, h1, h2⟩ := h
  have hs := (C136_image_size cams).2
  have hpos : 0 < (cams.map fun c => (4 * c.1 * c.2 : ℝ) / 2 ^ 20).sum := by
    have : (4 * c.1 * c.2 : ℝ) / 2 ^ 20 ≤ (cams.map fun c => (4 * c.1 * c.2 : ℝ) / 2 ^ 20).sum := by
      apply List.single_le_sum
      · intro x hx
        obtain ⟨d, _, rfl⟩ := List.mem_map.1 hx
        positivity
      · exact List.mem_map.2 ⟨c, hc, rfl⟩
    have h1' : (0 : ℝ) < c.1 := by exact_mod_cast h1
    have h2' : (0 : ℝ) < c.2 := by exact_mod_cast h2
    have : 0 < (4 * c.1 * c.2 : ℝ) / 2 ^ 20 := by positivity
    linarith
  rcases (size_nonneg cams).lt_or_eq with h | h
  · exact h
  · rw [← h] at hs; simp only [zero_mul] at hs; rw [← hs] at hpos; exact absurd hpos (lt_irrefl _)

theorem size_zero (cams : List (ℕ × ℕ)) : averageImageSize cams = 0 ↔ ∀ c ∈ cams, c.1 = 0 ∨ c.2 = 0 := by
  constructor
  · intro h c hc
    by_contra hn
    push Not at hn
    have := size_pos cams ⟨c, hc, Nat.pos_of_ne_zero hn.1, Nat.pos_of_ne_zero hn.2⟩
    rw [h] at this; exact lt_irrefl _ this
  · intro h
    unfold averageImageSize
    rw [foldl_size, zero_add]
    have : (cams.map fun c : ℕ × ℕ => (c.1 : ℝ) * c.2 * 4 / 1024 / 1024).sum = 0 := by
      apply List.sum_eq_zero
      intro x hx
      obtain ⟨c, hc, rfl⟩ := List.mem_map.1 hx
      rcases h c hc with h | h <;> rw [h] <;> simp
    rw [this, zero_div]

theorem octaves_eq (n : ℕ) (t s : ℝ) : (octaves n (t, s)).1 = t + 3 * s * (2 - 2 / 2 ^ n) := by
  induction n generalizing t s with
  | zero => simp [octaves]
  | succ n ih =>
    rw [octaves, octaveStep, ih]
    field_simp
    ring

/-- C136: the processing size of `feature_process_size` p: an exception for p <= 0 (the documented -1, "original size", included); 0 for
p < 16; for 16 * 2^k <= p < 16 * 2^(k+1) it is 3 * (4 p² / 2^20) * (2 - 1/2^k): the octaves are halved in size from each to the next. -/
theorem C136_processing_size (p : ℤ) :
    (p ≤ 0 ↔ averageProcessingSize p = none) ∧
    (0 < p → p < 16 → averageProcessingSize p = some 0) ∧
    (∀ k : ℕ, 16 * 2 ^ k ≤ p → p < 16 * 2 ^ (k + 1) →
      averageProcessingSize p = some (3 * (4 * (p : ℝ) ^ 2 / 2 ^ 20) * (2 - 1 / 2 ^ k))) := by
  have key : ∀ p : ℤ, 0 < p → ∀ z : ℤ, (2 : ℝ) ^ z ≤ (p : ℝ) / 16 → (p : ℝ) / 16 < (2 : ℝ) ^ (z + 1) → ⌊Real.logb 2 ((p : ℝ) / 16)⌋ = z := by
    intro p hp z h1 h2
    have hp' : (0 : ℝ) < (p : ℝ) / 16 := by
      have : (0 : ℝ) < p := by exact_mod_cast hp
      positivity
    rw [Int.floor_eq_iff]
    constructor
    · rw [Real.le_logb_iff_rpow_le (by norm_num) hp', Real.rpow_intCast]; exact h1
    · rw [Real.logb_lt_iff_lt_rpow (by norm_num) hp']
      have : (2 : ℝ) ^ ((z : ℝ) + 1) = (2 : ℝ) ^ (z + 1) := by
        rw [← Real.rpow_intCast]; push_cast; rfl
      rw [this]; exact h2
  refine ⟨?_, ?_, ?_⟩
  · unfold averageProcessingSize
    split <;> simp_all
  · intro h0 h16
    unfold averageProcessingSize
    rw [if_neg (by omega)]
    have hneg : ⌊Real.logb 2 ((p : ℝ) / 16)⌋ < 0 := by
      rw [Int.floor_lt]
      have h1 : (0 : ℝ) < (p : ℝ) / 16 := by
        have : (0 : ℝ) < p := by exact_mod_cast h0
        positivity
      have h2 : (p : ℝ) / 16 < 1 := by
        have : (p : ℝ) < 16 := by exact_mod_cast h16
        linarith
      have := Real.logb_neg (b := 2) (by norm_num) h1 h2
      exact_mod_cast this
    have : (⌊Real.logb 2 ((p : ℝ) / 16)⌋ + 1).toNat = 0 := by omega
    simp only [this]; rfl
  · intro k h1 h2
    have hpos : 0 < p := by
      have : (0 : ℤ) < 16 * 2 ^ k := by positivity
      omega
    unfold averageProcessingSize
    rw [if_neg (by omega)]
    have h1' : (16 : ℝ) * 2 ^ k ≤ p := by exact_mod_cast h1
    have h2' : (p : ℝ) < 16 * 2 ^ (k + 1) := by exact_mod_cast h2
    have hk := key p hpos k (by rw [zpow_natCast]; linarith) (by
      have : ((k : ℤ) + 1) = ((k + 1 : ℕ) : ℤ) := by push_cast; rfl
      rw [this, zpow_natCast]; linarith)
    have : ((k : ℤ) + 1).toNat = k + 1 := by omega
    simp only [hk, this, octaves_eq]
    congr 1
    have : (2 : ℝ) ^ k ≠ 0 := by positivity
    rw [pow_succ]
    field_simp
    ring

theorem exists_octave (p : ℤ) (h : 16 ≤ p) : ∃ k : ℕ, 16 * 2 ^ k ≤ p ∧ p < 16 * 2 ^ (k + 1) := by
  obtain ⟨n, hn⟩ : ∃ n : ℕ, (n : ℤ) = p / 16 := ⟨(p / 16).toNat, by omega⟩
  have hn0 : n ≠ 0 := by omega
  refine ⟨Nat.log 2 n, ?_, ?_⟩
  · have := Nat.pow_log_le_self 2 hn0
    have h' : ((2 ^ Nat.log 2 n : ℕ) : ℤ) ≤ (n : ℤ) := by exact_mod_cast this
    push_cast at h'
    omega
  · have := Nat.lt_pow_succ_log_self (b := 2) (by norm_num) n
    have h' : (n : ℤ) < ((2 ^ (Nat.log 2 n + 1) : ℕ) : ℤ) := by exact_mod_cast this
    push_cast at h'
    omega

theorem processing_pos (p : ℤ) (h : 16 ≤ p) : ∃ s, averageProcessingSize p = some s ∧ 0 < s := by
  obtain ⟨k, h1, h2⟩ := exists_octave p h
  refine ⟨_, (C136_processing_size p).2.2 k h1 h2, ?_⟩
  have hp : (0 : ℝ) < p := by exact_mod_cast (by omega : (0 : ℤ) < p)
  have hk : (1 : ℝ) / 2 ^ k ≤ 1 := by
    rw [div_le_one (by positivity)]; exact one_le_pow₀ (by norm_num)
  have : (0 : ℝ) < 2 - 1 / 2 ^ k := by linarith
  positivity

/-- The memory used by the plan (MB) is known and not 0: `mem_ceiling`, or the available memory when it is not given (or 0). -/
def KnownMemory (ceiling available : Option ℝ) (mem : ℝ) : Prop :=
  mem ≠ 0 ∧ (ceiling = some mem ∨ ((ceiling = none ∨ ceiling = some 0) ∧ available = some mem))

/-- The ratio in use: `mem_ratio`, or 0.9 when it is not given (or 0). -/
def UsedRatio (ratio : Option ℝ) (r : ℝ) : Prop :=
  (r ≠ 0 ∧ ratio = some r) ∨ ((ratio = none ∨ ratio = some 0) ∧ r = 0.9)

theorem memory_iff (ceiling available : Option ℝ) {mem : ℝ} (h : KnownMemory ceiling available mem) : memory ceiling available = mem := by
  obtain ⟨h0, h | ⟨h | h, h'⟩⟩ := h
  · subst h; simp [memory, orElse, h0]
  · subst h h'; simp [memory, orElse]; exact Eq.symm
  · subst h h'; simp [memory, orElse]; exact Eq.symm

theorem ratio_iff (ratio : Option ℝ) {r : ℝ} (h : UsedRatio ratio r) : orElse ratio 0.9 = r := by
  obtain ⟨h0, h⟩ | ⟨h | h, h'⟩ := h
  · subst h; simp [orElse, h0]
  · subst h h'; simp [orElse]
  · subst h h'; simp [orElse]

/-- C136: without a known amount of memory the queue takes 10 images and the processes are those of the configuration. -/
theorem C136_unknown (ceiling ratio available : Option ℝ) (processes : ℤ) (cams : List (ℕ × ℕ)) (p : ℤ)
    (h1 : ceiling = none ∨ ceiling = some 0) (h2 : available = none ∨ available = some 0) :
    plan ceiling ratio available processes cams p = some (10, processes) := by
  rcases h1 with rfl | rfl <;> rcases h2 with rfl | rfl <;> simp [plan, memory, orElse]

theorem plan_eq {ceiling ratio available : Option ℝ} {mem r : ℝ} (hm : KnownMemory ceiling available mem) (hr : UsedRatio ratio r)
    (processes : ℤ) (cams : List (ℕ × ℕ)) (p : ℤ) :
    plan ceiling ratio available processes cams p =
      (pyDiv (mem * r / 2) (averageImageSize cams)).bind fun q => (averageProcessingSize p).bind fun s =>
        (pyDiv (mem * r / 2) s).bind fun n => some (min 200 (pyInt q), min (max 1 (pyInt n)) processes) := by
  unfold plan
  simp only [memory_iff _ _ hm, ratio_iff _ hr]
  rw [if_neg hm.1]
  cases pyDiv (mem * r / 2) (averageImageSize cams) with
  | none => rfl
  | some q =>
    cases averageProcessingSize p with
    | none => rfl
    | some s => 
      simp only [Option.bind_some]
      cases pyDiv (mem * r / 2) s <;> rfl

/-- C136: when the memory is known, feature extraction raises before it starts exactly when no camera model has pixels (no model at all included)
or `feature_process_size` is below 16: so with the documented value -1 it never runs. -/
theorem C136_raises (ceiling ratio available : Option ℝ) (mem r : ℝ) (hm : KnownMemory ceiling available mem) (hr : UsedRatio ratio r)
    (processes : ℤ) (cams : List (ℕ × ℕ)) (p : ℤ) :
    plan ceiling ratio available processes cams p = none ↔ (∀ c ∈ cams, c.1 = 0 ∨ c.2 = 0) ∨ p < 16 := by
  rw [plan_eq hm hr]
  by_cases hz : averageImageSize cams = 0
  · simp only [pyDiv, hz, if_true, Option.bind_none, true_iff]
    exact Or.inl ((size_zero cams).1 hz)
  · have hz' : ¬ ∀ c ∈ cams, c.1 = 0 ∨ c.2 = 0 := fun h => hz ((size_zero cams).2 h)
    simp only [pyDiv, if_neg hz, Option.bind_some, hz', false_or]
    by_cases hp : p < 16
    · simp only [hp, iff_true]
      by_cases h0 : p ≤ 0
      · rw [(C136_processing_size p).1.1 h0]; rfl
      · rw [(C136_processing_size p).2.1 (by omega) hp]; simp
    · obtain ⟨s, hs, hs0⟩ := processing_pos p (by omega)
      rw [hs]
      simp [hp, hs0.ne']

/-- C136: when the memory is known (and positive, as its ratio): the queue is planned for at most 200 images, and that many average images take at most half
of the memory allowed; there is always a process when the configuration has one, never more than it has, and if more than one is used, their processing
sizes together take at most half of the memory allowed too. Nothing smaller is chosen without need. -/
theorem C136_bounds (ceiling ratio available : Option ℝ) (mem r : ℝ) (hm : KnownMemory ceiling available mem) (hr : UsedRatio ratio r)
    (hm0 : 0 < mem) (hr0 : 0 < r) (processes : ℤ) (cams : List (ℕ × ℕ)) (p : ℤ) (queue procs : ℤ)
    (h : plan ceiling ratio available processes cams p = some (queue, procs)) :
    (0 ≤ queue ∧ queue ≤ 200 ∧ queue * averageImageSize cams ≤ mem * r / 2 ∧
      (queue < 200 → mem * r / 2 < (queue + 1) * averageImageSize cams)) ∧
    (procs ≤ processes ∧ (1 ≤ processes → 1 ≤ procs) ∧ ∃ s, averageProcessingSize p = some s ∧
      (1 < procs → procs * s ≤ mem * r / 2) ∧ (procs < processes → 1 ≤ procs → mem * r / 2 < (procs + 1) * s)) := by
  have hE : 0 < mem * r / 2 := by positivity
  have hnr : ¬ ((∀ c ∈ cams, c.1 = 0 ∨ c.2 = 0) ∨ p < 16) := by
    intro hc
    rw [(C136_raises ceiling ratio available mem r hm hr processes cams p).2 hc] at h
    cases h
  rw [not_or] at hnr
  obtain ⟨hnc, hnp⟩ := hnr
  obtain ⟨s, hs, hs0⟩ := processing_pos p (by omega)
  have hz : averageImageSize cams ≠ 0 := fun hz => hnc ((size_zero cams).1 hz)
  have hz0 : 0 < averageImageSize cams := lt_of_le_of_ne (size_nonneg _) (Ne.symm hz)
  rw [plan_eq hm hr, hs] at h
  simp only [pyDiv, if_neg hz, if_neg hs0.ne', Option.bind_some, Option.some.injEq, Prod.mk.injEq] at h
  obtain ⟨rfl, rfl⟩ := h
  have floor_spec : ∀ d : ℝ, 0 < d → (0 ≤ pyInt (mem * r / 2 / d) ∧ (pyInt (mem * r / 2 / d) : ℝ) * d ≤ mem * r / 2 ∧
      mem * r / 2 < ((pyInt (mem * r / 2 / d) : ℝ) + 1) * d) := by
    intro d hd
    have hq : 0 ≤ mem * r / 2 / d := by positivity
    unfold pyInt
    rw [if_pos hq]
    refine ⟨Int.floor_nonneg.2 hq, ?_, ?_⟩
    · rw [← le_div_iff₀ hd]; exact Int.floor_le _
    · rw [← div_lt_iff₀ hd]; exact Int.lt_floor_add_one _
  obtain ⟨q1, q2, q3⟩ := floor_spec _ hz0
  obtain ⟨n1, n2, n3⟩ := floor_spec _ hs0
  generalize pyInt (mem * r / 2 / averageImageSize cams) = Q at *
  generalize pyInt (mem * r / 2 / s) = N at *
  refine ⟨⟨by omega, by omega, ?_, ?_⟩, by omega, by omega, s, hs, ?_, ?_⟩
  · have : ((min 200 Q : ℤ) : ℝ) ≤ (Q : ℝ) := by exact_mod_cast min_le_right _ _
    nlinarith
  · intro hlt
    have : min 200 Q = Q := by omega
    rw [this]; exact q3
  · intro hlt
    have hle : min (max 1 N) processes ≤ N := by omega
    have : ((min (max 1 N) processes : ℤ) : ℝ) ≤ (N : ℝ) := by exact_mod_cast hle
    nlinarith
  · intro hlt hge
    have hle : N ≤ min (max 1 N) processes := by omega
    have : (N : ℝ) ≤ ((min (max 1 N) processes : ℤ) : ℝ) := by exact_mod_cast hle
    nlinarith

/-- C136 (finding): when half of the memory allowed is less than one average image, the size of the queue is 0, which is no limit at all: the reading
threads are never made to wait, whatever the number of images in the queue. Otherwise they wait exactly when the planned number of images is there. -/
theorem C136_no_limit (ceiling ratio available : Option ℝ) (mem r : ℝ) (hm : KnownMemory ceiling available mem) (hr : UsedRatio ratio r)
    (hm0 : 0 < mem) (hr0 : 0 < r) (processes : ℤ) (cams : List (ℕ × ℕ)) (p : ℤ) (queue procs : ℤ)
    (h : plan ceiling ratio available processes cams p = some (queue, procs)) :
    (mem * r / 2 < averageImageSize cams ↔ ∀ n, queueFull queue n = false) ∧
    (averageImageSize cams ≤ mem * r / 2 → ∀ n, queueFull queue n = true ↔ queue ≤ n) := by
  obtain ⟨⟨b1, b2, b3, b4⟩, _⟩ := C136_bounds ceiling ratio available mem r hm hr hm0 hr0 processes cams p queue procs h
  have hE : 0 < mem * r / 2 := by positivity
  have hz0 := size_nonneg cams
  have hq0 : queue = 0 ↔ mem * r / 2 < averageImageSize cams := by
    constructor
    · rintro rfl
      have := b4 (by norm_num)
      simpa using this
    · intro hlt
      by_contra hne
      have h1 : 1 ≤ queue := by omega
      have : (1 : ℝ) ≤ (queue : ℝ) := by exact_mod_cast h1
      nlinarith
  constructor
  · rw [← hq0]
    constructor
    · rintro rfl n; simp [queueFull]
    · intro hall
      by_contra hne
      have := hall queue.toNat
      simp only [queueFull, decide_eq_false_iff_not, not_and, not_le] at this
      have := this (by omega)
      omega
  · intro hle n
    have : queue ≠ 0 := fun h0 => absurd (hq0.1 h0) (not_lt.2 hle)
    simp only [queueFull, decide_eq_true_eq]
    constructor
    · exact fun h => h.2
    · intro h; exact ⟨by omega, h⟩

/-- Not vacuous: with 8000 MB, the default ratio, one camera of 4000 x 3000 and the default size, there is a plan. -/
example : ∃ q n, plan none none (some 8000) 4 [(4000, 3000)] 2048 = some (q, n) ∧ 0 ≤ q ∧ 1 ≤ n := by
  have hm : KnownMemory none (some 8000) 8000 := ⟨by norm_num, Or.inr ⟨Or.inl rfl, rfl⟩⟩
  have hr : UsedRatio none 0.9 := Or.inr ⟨Or.inl rfl, rfl⟩
  cases h : plan none none (some 8000) 4 [(4000, 3000)] 2048 with
  | none =>
    have := (C136_raises _ _ _ _ _ hm hr 4 [(4000, 3000)] 2048).1 h
    norm_num at this
  | some x =>
    have := C136_bounds _ _ _ _ _ hm hr (by norm_num) (by norm_num) _ _ _ x.1 x.2 h
    exact ⟨x.1, x.2, rfl, this.1.1, this.2.2.1 (by norm_num)⟩

end Verif.FeaturePlan
