/-
Property theorems C05–C07: sensor read-out cadence.
-/
import Verif.Lemmas.Exposure

namespace Soapy.Props

open Soapy.Exposure

/-- **C05.** Exposure time at least the loop time: after `n` frames of a fresh simulation the sensor
has been read `⌊n·T/E⌋` times, and frame `i` is read exactly when an exposure ends in it. -/
theorem C05_cadence (T E : ℚ) (hT : 0 < T) (hTE : T ≤ E) (n : ℕ) :
    ∃ f reads, freshRun (decideNoMP (quant T E)) n = .ok (f, reads) ∧
      reads.length = n ∧
      f = ⌊(n : ℚ) * T / E⌋ ∧
      (reads.count true : ℤ) = ⌊(n : ℚ) * T / E⌋ ∧
      ∀ i, i < n → reads[i]? =
        some (decide (⌊(i : ℚ) * T / E⌋ < ⌊((i : ℚ) + 1) * T / E⌋)) := by
  have hE : 0 < E := lt_of_lt_of_le hT hTE
  have hrun := runFrames_noMP (quant T E) 0 0 n
  simp only [Nat.zero_add] at hrun
  -- closed form of the frame counter
  have hf : ∀ m : ℕ, frameNoAt (quant T E) 0 m = ⌊(m : ℚ) * T / E⌋ := by
    intro m
    cases m with
    | zero => simp [frameNoAt]
    | succ m =>
      rw [frameNoAt_unit _ (quant_zero_cases T E hT hTE) (quant_succ_cases T E hT hTE),
        quant_eq T E hT.le hE]
      congr 2; push_cast; ring
  have hq : ∀ m : ℕ, quant T E m = ⌊((m : ℚ) + 1) * T / E⌋ := by
    intro m; rw [quant_eq T E hT.le hE]; congr 2; ring
  have hle : ∀ m : ℕ, ⌊(m : ℚ) * T / E⌋ ≤ ⌊((m : ℚ) + 1) * T / E⌋ := by
    intro m; apply Int.floor_le_floor
    apply div_le_div_of_nonneg_right _ hE.le
    nlinarith
  have hread : ∀ m : ℕ, readAt (quant T E) 0 m =
      decide (⌊(m : ℚ) * T / E⌋ < ⌊((m : ℚ) + 1) * T / E⌋) := by
    intro m
    rw [readAt, readStep_read, hf, hq]
    have := hle m
    by_cases h : ⌊((m : ℚ) + 1) * T / E⌋ = ⌊(m : ℚ) * T / E⌋
    · simp [h]
    · have : ⌊(m : ℚ) * T / E⌋ < ⌊((m : ℚ) + 1) * T / E⌋ := by omega
      simp [h, this]
  have hcount : ∀ m : ℕ, (((List.range m).map fun i => readAt (quant T E) 0 i).count true : ℤ)
      = frameNoAt (quant T E) 0 m := by
    intro m
    induction m with
    | zero => simp [frameNoAt]
    | succ m ih =>
      rw [List.range_succ, List.map_append, List.count_append]
      push_cast
      rw [ih, frameNoAt, readStep_fst, List.map_singleton, readAt, readStep_read]
      by_cases h : quant T E m = frameNoAt (quant T E) 0 m <;> simp [h]
  refine ⟨_, _, hrun, by simp, hf n, (hcount n).trans (hf n), ?_⟩
  intro i hi
  simp [hi, hread]

-- exposure of 2.5 frames: frames 2, 4 of the first six are read
example : freshRun (decideNoMP (quant 2 5)) 6 = .ok (2, [false, false, true, false, true, false]) := by
  decide +kernel

/-- **C05 (short exposures).** Exposure time at most the loop time: every frame is read. -/
theorem C05_short (T E : ℚ) (hE : 0 < E) (hET : E ≤ T) (n : ℕ) :
    freshRun (decideNoMP (quant T E)) n = .ok ((n : ℤ), List.replicate n true) := by
  have hrun := runFrames_noMP (quant T E) 0 0 n
  simp only [Nat.zero_add] at hrun
  have hf : ∀ m : ℕ, frameNoAt (quant T E) 0 m = m := by
    intro m
    induction m with
    | zero => rfl
    | succ m ih =>
      have := le_quant_of_short T E hE hET m
      rw [frameNoAt, ih, readStep_fst, if_neg (by omega)]; push_cast; rfl
  have hr : ∀ m : ℕ, readAt (quant T E) 0 m = true := by
    intro m
    have := le_quant_of_short T E hE hET m
    rw [readAt, readStep_read, hf]
    simp; omega
  unfold freshRun
  have h0 : frameNoAt (quant T E) 0 0 = 0 := rfl
  rw [h0] at hrun
  rw [hrun, hf]
  congr 2
  apply List.ext_getElem <;> simp [hr]

/-- **C05 (any clock).** Whatever monotone quantised clock `q` is used (in particular the floating point
one), a sensor is never read more often than exposures have ended, and the number of reads
before frame `n` is the largest number allowed by that and by one read per frame:
`min over k ≤ n of (q̂ k + (n - k))` with `q̂ 0 = 0`, `q̂ (k+1) = q k`. -/
theorem C05_any_clock (q : ℕ → ℤ) (h0 : 0 ≤ q 0) (hm : Monotone q) (n : ℕ) :
    ∃ f reads, freshRun (decideNoMP q) n = .ok (f, reads) ∧
      (reads.count true : ℤ) = f ∧
      (f ≤ n ∧ ∀ k, k < n → f ≤ q k + (n - (k + 1) : ℤ)) ∧
      (f = n ∨ ∃ k, k < n ∧ f = q k + (n - (k + 1) : ℤ)) := by
  have hrun := runFrames_noMP q 0 0 n
  simp only [Nat.zero_add] at hrun
  have key : ∀ m : ℕ, (frameNoAt q 0 m ≤ m ∧ ∀ k, k < m → frameNoAt q 0 m ≤ q k + (m - (k + 1) : ℤ)) ∧
      (frameNoAt q 0 m = m ∨ ∃ k, k < m ∧ frameNoAt q 0 m = q k + (m - (k + 1) : ℤ)) ∧
      frameNoAt q 0 m ≤ q m := by
    intro m
    induction m with
    | zero => exact ⟨⟨le_refl _, by simp⟩, Or.inl rfl, h0⟩
    | succ m ih =>
      obtain ⟨⟨h1, h2⟩, h3, h4⟩ := ih
      have hmm : q m ≤ q (m + 1) := hm (Nat.le_succ m)
      rw [frameNoAt, readStep_fst]
      by_cases h : q m = frameNoAt q 0 m
      · rw [if_pos h]
        refine ⟨⟨by push_cast; omega, ?_⟩, Or.inr ⟨m, Nat.lt_succ_self m, by push_cast; omega⟩, by omega⟩
        intro k hk
        rcases Nat.lt_succ_iff_lt_or_eq.mp hk with hk | rfl
        · have := h2 k hk; push_cast; omega
        · push_cast; omega
      · rw [if_neg h]
        refine ⟨⟨by push_cast; omega, ?_⟩, ?_, by omega⟩
        · intro k hk
          rcases Nat.lt_succ_iff_lt_or_eq.mp hk with hk | rfl
          · have := h2 k hk; push_cast; omega
          · push_cast; omega
        · rcases h3 with h3 | ⟨k, hk, h3⟩
          · left; push_cast; omega
          · right; exact ⟨k, by omega, by push_cast; omega⟩
  have hcount : ∀ m : ℕ, (((List.range m).map fun i => readAt q 0 i).count true : ℤ)
      = frameNoAt q 0 m := by
    intro m
    induction m with
    | zero => simp [frameNoAt]
    | succ m ih =>
      rw [List.range_succ, List.map_append, List.count_append]
      push_cast
      rw [ih, frameNoAt, readStep_fst, List.map_singleton, readAt, readStep_read]
      by_cases h : q m = frameNoAt q 0 m <;> simp [h]
  exact ⟨_, _, hrun, hcount n, (key n).1, (key n).2.1⟩

/-- The promised "read all sensors if no iteration is given" is an error instead. -/
theorem C05_no_iteration_fails (q : ℕ → ℤ) (f : ℤ) : decideNoMP q none f = .error .typeError := rfl

/-- **C06 is violated.** After a reset, with an exposure longer than the loop time, the sensor is read on
*every* frame, for ever, as soon as it had been read once before the reset. -/
theorem C06_reset_violated (T E : ℚ) (hT : 0 < T) (hTE : T < E) (n₁ n₂ : ℕ)
    (h1 : E ≤ (n₁ : ℚ) * T) :
    runResetRun (decideNoMP (quant T E)) n₁ n₂ = .ok (List.replicate n₂ true) ∧
      (0 < n₂ → ∃ f rs, freshRun (decideNoMP (quant T E)) n₂ = .ok (f, false :: rs)) := by
  have hE : 0 < E := hT.trans hTE
  have hone : 1 ≤ ⌊(n₁ : ℚ) * T / E⌋ := by
    rw [Int.le_floor, le_div_iff₀ hE]; push_cast; linarith
  obtain ⟨f, reads, hr, _, hf, _, _⟩ := C05_cadence T E hT hTE.le n₁
  have hqlt : ∀ i : ℕ, quant T E i < i + 1 := by
    intro i
    rw [quant_eq T E hT.le hE, Int.floor_lt, div_lt_iff₀ hE]
    push_cast
    have : (0 : ℚ) < (i : ℚ) + 1 := by positivity
    nlinarith
  have hfn : ∀ m : ℕ, frameNoAt (quant T E) f m = f + m := by
    intro m
    induction m with
    | zero => simp [frameNoAt]
    | succ m ih =>
      have := hqlt m
      rw [frameNoAt, ih, readStep_fst, if_neg (by omega)]; push_cast; ring
  constructor
  · have hrun := runFrames_noMP (quant T E) f 0 n₂
    simp only [Nat.zero_add] at hrun
    rw [show frameNoAt (quant T E) f 0 = f from rfl] at hrun
    simp only [runResetRun, hr, hrun]
    congr 1
    apply List.ext_getElem
    · simp
    · intro i hi1 hi2
      simp only [List.getElem_map, List.getElem_range, List.getElem_replicate]
      have := hqlt i
      rw [readAt, readStep_read, hfn]; simp; omega
  · intro hn
    obtain ⟨f2, reads2, hr2, hl, _, _, hrd⟩ := C05_cadence T E hT hTE.le n₂
    cases reads2 with
    | nil => simp at hl; omega
    | cons r rs =>
      have := hrd 0 hn
      simp at this
      refine ⟨f2, rs, ?_⟩
      rw [hr2, this]
      congr 3
      simp only [decide_eq_false_iff_not, not_lt]
      have : ⌊T / E⌋ = 0 := by
        rw [Int.floor_eq_zero_iff]
        exact ⟨by positivity, (div_lt_one hE).mpr hTE⟩
      rw [this]

example : runResetRun (decideNoMP (quant 1 2)) 2 3 = .ok [true, true, true] ∧
    freshRun (decideNoMP (quant 1 2)) 3 = .ok (1, [false, true, false]) := by
  decide +kernel

/-- C06 also fails for exposures shorter than the loop time (a frame is skipped), and for the default
exposure time = loop time after exactly one frame. -/
theorem C06_reset_violated_short :
    runResetRun (decideNoMP (quant 2 1)) 2 3 = .ok [false, true, true] ∧
    runResetRun (decideNoMP (quant 1 1)) 1 3 = .ok [false, true, true] := by
  decide +kernel

/-- **C06 (part that holds).** With the default exposure time = loop time and a number of frames before
the reset other than one, the sensors are read after the reset exactly as in a fresh run.
Missing for the full statement: other exposure times, where it is false (`C06_reset_violated`,
`C06_reset_violated_short`). -/
theorem C06_reset_partial (T : ℚ) (hT : 0 < T) (n₁ n₂ : ℕ) (h : n₁ ≠ 1) :
    ∃ f reads, freshRun (decideNoMP (quant T T)) n₂ = .ok (f, reads) ∧
      runResetRun (decideNoMP (quant T T)) n₁ n₂ = .ok reads := by
  refine ⟨_, _, C05_short T T hT le_rfl n₂, ?_⟩
  have hq : ∀ i : ℕ, quant T T i = i + 1 := by
    intro i
    rw [quant_eq T T hT.le hT, mul_comm, mul_div_assoc, div_self hT.ne', mul_one]
    have : ((i : ℚ) + 1) = (((i : ℤ) + 1 : ℤ) : ℚ) := by push_cast; ring
    rw [this, Int.floor_intCast]
  have hfn : ∀ m : ℕ, frameNoAt (quant T T) (n₁ : ℤ) m = n₁ + m := by
    intro m
    induction m with
    | zero => simp [frameNoAt]
    | succ m ih =>
      rw [frameNoAt, ih, readStep_fst, hq, if_neg (by omega)]; push_cast; ring
  have hrun := runFrames_noMP (quant T T) (n₁ : ℤ) 0 n₂
  simp only [Nat.zero_add] at hrun
  rw [show frameNoAt (quant T T) (n₁ : ℤ) 0 = n₁ from rfl] at hrun
  simp only [runResetRun, C05_short T T hT le_rfl n₁, hrun]
  congr 1
  apply List.ext_getElem
  · simp
  · intro i hi1 hi2
    simp only [List.getElem_map, List.getElem_range, List.getElem_replicate]
    rw [readAt, readStep_read, hfn, hq]; simp; omega

example : (0 : ℚ) < 1 / 400 ∧ (5 : ℕ) ≠ 1 := by norm_num

/-- **C07 is violated** for exposures longer than the loop time: the multi-process scheduler always
reads frame 0, the single-process one does not; all later frames agree. -/
theorem C07_mp_differs (T E : ℚ) (hT : 0 < T) (hTE : T < E) (n : ℕ) :
    ∃ f reads, freshRun (decideNoMP (quant T E)) (n + 1) = .ok (f, false :: reads) ∧
      freshRun (decideMP (quant T E)) (n + 1) = .ok (f, true :: reads) := by
  have hE : 0 < E := hT.trans hTE
  have hq0 : quant T E 0 = 0 := by
    rw [quant_eq T E hT.le hE, Int.floor_eq_zero_iff]
    simp only [Nat.cast_zero, zero_add, mul_one]
    exact ⟨by positivity, (div_lt_one hE).mpr hTE⟩
  have hsame : ∀ m : ℕ, frameNoAtMP (quant T E) 0 (m + 1) = frameNoAt (quant T E) 0 (m + 1) := by
    intro m
    induction m with
    | zero => simp [frameNoAtMP, frameNoAt, readStep_fst, hq0]
    | succ m ih => rw [frameNoAtMP, ih]; rfl
  have h1 := runFrames_noMP (quant T E) 0 0 (n + 1)
  have h2 := runFrames_MP (quant T E) 0 0 (n + 1)
  simp only [Nat.zero_add] at h1 h2
  refine ⟨frameNoAt (quant T E) 0 (n + 1), (List.range n).map fun i => readAt (quant T E) 0 (i + 1),
    ?_, ?_⟩
  · unfold freshRun
    rw [show frameNoAt (quant T E) 0 0 = 0 from rfl] at h1
    rw [h1, List.range_succ_eq_map]
    have hr0 : readAt (quant T E) 0 0 = false := by simp [readAt, readStep_read, frameNoAt, hq0]
    simp [Function.comp_def, hr0]
  · unfold freshRun
    rw [show frameNoAtMP (quant T E) 0 0 = 0 from rfl] at h2
    rw [h2, List.range_succ_eq_map, hsame]
    simp only [List.map_cons, List.map_map]
    congr 3
    apply List.map_congr_left
    intro a _
    simp only [Function.comp, readAtMP, hsame]
    rfl

/-- **C07 (part that holds).** With exposures not longer than the loop time both schedulers take the same
decisions on every frame.  Missing for the full statement: `T < E`, where frame 0 differs
(`C07_mp_differs`); in addition the multi-process run cannot complete a frame in this version of
the code (see DESIGN.md, findings). -/
theorem C07_mp_agrees_partial (T E : ℚ) (hE : 0 < E) (hET : E ≤ T) (n : ℕ) :
    ∃ f f' reads, freshRun (decideNoMP (quant T E)) n = .ok (f, reads) ∧
      freshRun (decideMP (quant T E)) n = .ok (f', reads) := by
  have h2 := runFrames_MP (quant T E) 0 0 n
  simp only [Nat.zero_add] at h2
  have hf : ∀ m : ℕ, frameNoAtMP (quant T E) 0 (m + 1) = m := by
    intro m
    induction m with
    | zero => rfl
    | succ m ih =>
      have := le_quant_of_short T E hE hET (m + 1)
      rw [frameNoAtMP, ih, readStep_fst, if_neg (by push_cast at this; omega)]; push_cast; rfl
  refine ⟨_, frameNoAtMP (quant T E) 0 n, _, C05_short T E hE hET n, ?_⟩
  unfold freshRun
  rw [show frameNoAtMP (quant T E) 0 0 = 0 from rfl] at h2
  rw [h2]
  congr 2
  apply List.ext_getElem
  · simp
  · intro i hi1 hi2
    simp only [List.getElem_map, List.getElem_range, List.getElem_replicate]
    cases i with
    | zero => rfl
    | succ i =>
      have := le_quant_of_short T E hE hET (i + 1)
      rw [readAtMP, readStep_read, hf]
      simp; push_cast at this; omega

example : freshRun (decideMP (quant 1 2)) 4 = .ok (2, [true, true, false, true]) ∧
    freshRun (decideNoMP (quant 1 2)) 4 = .ok (2, [false, true, false, true]) := by
  decide +kernel

end Soapy.Props
