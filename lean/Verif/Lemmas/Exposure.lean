import Verif.Model.Exposure
import Mathlib.Tactic.Linarith
import Mathlib.Tactic.Positivity
import Mathlib.Tactic.FieldSimp
import Mathlib.Algebra.Order.Floor.Ring

namespace Soapy.Exposure

/-- Frame number before frame `n` when the decisions are those of one process, starting from `f`. -/
def frameNoAt (q : ℕ → ℤ) (f : ℤ) : ℕ → ℤ
  | 0 => f
  | n + 1 => (readStep (q n) (frameNoAt q f n)).1

def readAt (q : ℕ → ℤ) (f : ℤ) (n : ℕ) : Bool := (readStep (q n) (frameNoAt q f n)).2

theorem runFrames_noMP (q : ℕ → ℤ) (f : ℤ) (start n : ℕ) :
    runFrames (decideNoMP q) start n (frameNoAt q f start) =
      .ok (frameNoAt q f (start + n), (List.range n).map fun i => readAt q f (start + i)) := by
  induction n generalizing start with
  | zero => simp [runFrames]
  | succ n ih =>
    have := ih (start + 1)
    simp only [runFrames, decideNoMP]
    have e : (readStep (q start) (frameNoAt q f start)).1 = frameNoAt q f (start + 1) := rfl
    rw [show readStep (q start) (frameNoAt q f start) =
      (frameNoAt q f (start + 1), readAt q f start) from rfl]
    simp only [this]
    congr 2
    · congr 1; omega
    · rw [List.range_succ_eq_map]
      simp [Function.comp_def]
      intro a _; congr 1; omega

/-- MP frame number before frame `n`, starting from `f` at frame 0. -/
def frameNoAtMP (q : ℕ → ℤ) (f : ℤ) : ℕ → ℤ
  | 0 => f
  | 1 => f
  | n + 2 => (readStep (q (n + 1)) (frameNoAtMP q f (n + 1))).1

def readAtMP (q : ℕ → ℤ) (f : ℤ) : ℕ → Bool
  | 0 => true
  | n + 1 => (readStep (q (n + 1)) (frameNoAtMP q f (n + 1))).2

theorem runFrames_MP (q : ℕ → ℤ) (f : ℤ) (start n : ℕ) :
    runFrames (decideMP q) start n (frameNoAtMP q f start) =
      .ok (frameNoAtMP q f (start + n), (List.range n).map fun i => readAtMP q f (start + i)) := by
  induction n generalizing start with
  | zero => simp [runFrames]
  | succ n ih =>
    have := ih (start + 1)
    have e : decideMP q (some start) (frameNoAtMP q f start) =
        .ok (frameNoAtMP q f (start + 1), readAtMP q f start) := by
      cases start <;> rfl
    simp only [runFrames, e, this]
    congr 2
    · congr 1; omega
    · rw [List.range_succ_eq_map]
      simp [Function.comp_def]
      intro a _; congr 1; omega

theorem readStep_read (q f : ℤ) : (readStep q f).2 = decide (q ≠ f) := by
  unfold readStep; split <;> simp_all

theorem readStep_fst (q f : ℤ) : (readStep q f).1 = if q = f then f else f + 1 := by
  unfold readStep; split <;> simp_all

theorem pyInt_nonneg (x : ℚ) (h : 0 ≤ x) : pyInt x = ⌊x⌋ := by simp [pyInt, h]

theorem quant_eq (T E : ℚ) (hT : 0 ≤ T) (hE : 0 < E) (n : ℕ) :
    quant T E n = ⌊T * ((n : ℚ) + 1) / E⌋ := by
  unfold quant; rw [pyInt_nonneg]; positivity

theorem quant_succ_le (T E : ℚ) (hT : 0 ≤ T) (hTE : T ≤ E) (hE : 0 < E) (n : ℕ) :
    quant T E (n + 1) ≤ quant T E n + 1 := by
  rw [quant_eq T E hT hE, quant_eq T E hT hE, ← Int.floor_add_one]
  apply Int.floor_le_floor
  rw [div_add_one hE.ne']
  apply div_le_div_of_nonneg_right _ hE.le
  push_cast; linarith

theorem quant_mono (T E : ℚ) (hT : 0 ≤ T) (hE : 0 < E) : Monotone (quant T E) := by
  intro a b hab
  rw [quant_eq T E hT hE, quant_eq T E hT hE]
  apply Int.floor_le_floor
  apply div_le_div_of_nonneg_right _ hE.le
  have : (a : ℚ) ≤ b := by exact_mod_cast hab
  nlinarith

/-- If the quantised time grows by 0 or 1 per frame, the frame number follows it exactly. -/
theorem frameNoAt_unit (q : ℕ → ℤ) (h0 : q 0 = 0 ∨ q 0 = 1)
    (hs : ∀ n, q (n + 1) = q n ∨ q (n + 1) = q n + 1) (n : ℕ) :
    frameNoAt q 0 (n + 1) = q n := by
  induction n with
  | zero =>
    simp only [frameNoAt, readStep_fst]
    rcases h0 with h | h <;> simp [h]
  | succ n ih =>
    rw [frameNoAt, ih, readStep_fst]
    rcases hs n with h | h <;> simp [h]

theorem quant_zero_cases (T E : ℚ) (hT : 0 < T) (hTE : T ≤ E) :
    quant T E 0 = 0 ∨ quant T E 0 = 1 := by
  have hE : 0 < E := lt_of_lt_of_le hT hTE
  rw [quant_eq T E hT.le hE]
  simp only [Nat.cast_zero, zero_add, mul_one]
  rcases hTE.lt_or_eq with h | h
  · left
    rw [Int.floor_eq_zero_iff]
    exact ⟨by positivity, (div_lt_one hE).mpr h⟩
  · right
    rw [h, div_self hE.ne']; simp

theorem quant_succ_cases (T E : ℚ) (hT : 0 < T) (hTE : T ≤ E) (n : ℕ) :
    quant T E (n + 1) = quant T E n ∨ quant T E (n + 1) = quant T E n + 1 := by
  have hE : 0 < E := lt_of_lt_of_le hT hTE
  have h1 := quant_succ_le T E hT.le hTE hE n
  have h2 := quant_mono T E hT.le hE (Nat.le_succ n)
  rw [Nat.succ_eq_add_one] at h2
  omega

theorem le_quant_of_short (T E : ℚ) (hE : 0 < E) (hET : E ≤ T) (n : ℕ) :
    (n : ℤ) + 1 ≤ quant T E n := by
  rw [quant_eq T E (hE.le.trans hET) hE, Int.le_floor, le_div_iff₀ hE]
  push_cast
  have : (0 : ℚ) ≤ n := by positivity
  nlinarith

end Soapy.Exposure
