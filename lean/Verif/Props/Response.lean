/-
Property theorems C110, continued: the answer of the loop to any course of the aberration and any errors is a convolution with its answer to a step; from this the exact range of gains in which everything stays bounded, for every delay, and the
noise that is left with a delay.
-/
import Verif.Props.Follow
import Verif.Props.Stable

namespace Soapy.Props

/-! ### What is left is a convolution with the answer to a step -/

private theorem conv_step (h : ℕ → ℚ) (d : ℕ) (g : ℚ) (hstep : ∀ n, h (n + 1) = h n - if d ≤ n then g * h (n - d) else 0) (f : ℕ → ℚ) (m : ℕ) :
    ∑ k ∈ Finset.range (m + 1), h (m - k) * f k = h 0 * f m + ∑ k ∈ Finset.range m, h (m - 1 - k) * f k - g * ∑ k ∈ Finset.range (m - d), h (m - d - 1 - k) * f k := by
  rw [Finset.sum_range_succ, Nat.sub_self]
  have e1 : ∑ k ∈ Finset.range m, h (m - k) * f k = ∑ k ∈ Finset.range m, h (m - 1 - k) * f k - ∑ k ∈ Finset.range m, if k < m - d then g * (h (m - d - 1 - k) * f k) else 0 := by
    rw [← Finset.sum_sub_distrib]
    refine Finset.sum_congr rfl fun k hk => ?_
    rw [Finset.mem_range] at hk
    rw [show m - k = (m - 1 - k) + 1 by omega, hstep]
    by_cases hd : k < m - d
    · rw [if_pos hd, if_pos (by omega), show m - 1 - k - d = m - d - 1 - k by omega]; ring
    · rw [if_neg hd, if_neg (by omega)]; ring
  have e2 : (∑ k ∈ Finset.range m, if k < m - d then g * (h (m - d - 1 - k) * f k) else 0) = g * ∑ k ∈ Finset.range (m - d), h (m - d - 1 - k) * f k := by
    rw [Finset.mul_sum, ← Finset.sum_filter]
    congr 1
    ext k
    simp only [Finset.mem_filter, Finset.mem_range]
    omega
  rw [e1, e2]
  ring

/-- **C110 (response).** For any delay and gain, any course `a` of the aberration and any errors `b`: what is left in frame `n` is made of the changes of the aberration and of the errors, each weighted with what is left of a step so many frames later. -/
theorem C110_response (d : ℕ) (g : ℚ) (a b : ℕ → ℚ) (n : ℕ) :
    lag d g a b n = a 0 * leftOver d g 1 n + ∑ k ∈ Finset.range n, leftOver d g 1 (n - 1 - k) * (a (k + 1) - a k) - g * ∑ k ∈ Finset.range (n - d), leftOver d g 1 (n - d - 1 - k) * b k := by
  induction n using Nat.strong_induction_on with
  | _ n ih =>
    cases n with
    | zero => rw [lag, leftOver]; simp
    | succ n =>
      have hstep : ∀ n, leftOver d g 1 (n + 1) = leftOver d g 1 n - if d ≤ n then g * leftOver d g 1 (n - d) else 0 := fun n => by rw [leftOver]
      have h0 : leftOver d g 1 0 = 1 := by rw [leftOver]
      rw [lag, ih n (Nat.lt_succ_self n)]
      have A := conv_step (leftOver d g 1) d g hstep (fun k => a (k + 1) - a k) n
      simp only [h0, one_mul] at A
      rw [show n + 1 - 1 = n by omega, A, hstep n]
      by_cases hd : d ≤ n
      · rw [if_pos hd, if_pos hd, ih (n - d) (by omega)]
        have B := conv_step (leftOver d g 1) d g hstep b (n - d)
        simp only [h0, one_mul] at B
        rw [show n + 1 - d = n - d + 1 by omega, show n - d + 1 - 1 = n - d by omega, B]
        ring
      · rw [if_neg hd, if_neg hd, show n + 1 - d = 0 by omega, show n - d = 0 by omega]
        simp
        ring

/-- A kick of 1 measured in the first frame of a loop with a delay of one frame, and its trace five frames later. -/
example : lag 1 (1 / 2) (fun _ => 0) (fun k => if k = 0 then 1 else 0) 5 = - (1 / 2) * leftOver 1 (1 / 2) 1 3 := by
  rw [C110_response]
  simp

/-! ### A step that settles does so geometrically -/

/-- Later values of the answer to a step are made of earlier ones. -/
private theorem step_later (d : ℕ) (g : ℚ) (N m : ℕ) :
    leftOver d g 1 (N + d + m) = leftOver d g 1 m * leftOver d g 1 (N + d) - g * ∑ j ∈ Finset.range d, (if j < m then leftOver d g 1 (m - 1 - j) else 0) * leftOver d g 1 (N + j) := by
  have hstep : ∀ n, leftOver d g 1 (n + 1) = leftOver d g 1 n - if d ≤ n then g * leftOver d g 1 (n - d) else 0 := fun n => by rw [leftOver]
  have h0 : leftOver d g 1 0 = 1 := by rw [leftOver]
  induction m using Nat.strong_induction_on with
  | _ m ih =>
    cases m with
    | zero => simp [h0]
    | succ m =>
      rw [show N + d + (m + 1) = N + d + m + 1 by omega, hstep (N + d + m), if_pos (by omega), ih m (Nat.lt_succ_self m), hstep m]
      -- the term that is taken off
      have key : leftOver d g 1 (N + d + m - d) = (if d ≤ m then leftOver d g 1 (m - d) * leftOver d g 1 (N + d) else 0) + ∑ j ∈ Finset.range d, (if j < m + 1 then leftOver d g 1 (m + 1 - 1 - j) else 0) * leftOver d g 1 (N + j)
          - ∑ j ∈ Finset.range d, (if j < m then leftOver d g 1 (m - 1 - j) else 0) * leftOver d g 1 (N + j) := by
        by_cases hd : d ≤ m
        · rw [if_pos hd, show N + d + m - d = N + d + (m - d) by omega, ih (m - d) (by omega), add_sub_assoc, ← Finset.sum_sub_distrib, sub_eq_add_neg, Finset.mul_sum, ← Finset.sum_neg_distrib]
          congr 1
          refine Finset.sum_congr rfl fun j hj => ?_
          rw [Finset.mem_range] at hj
          rw [if_pos (by omega : j < m + 1), if_pos (by omega : j < m), show m + 1 - 1 - j = (m - 1 - j) + 1 by omega, hstep]
          by_cases hj' : j < m - d
          · rw [if_pos hj', if_pos (by omega), show m - 1 - j - d = m - d - 1 - j by omega]; ring
          · rw [if_neg hj', if_neg (by omega)]; ring
        · rw [if_neg hd, zero_add, ← Finset.sum_sub_distrib, Finset.sum_eq_single m]
          · rw [if_pos (Nat.lt_succ_self m), if_neg (lt_irrefl m), show m + 1 - 1 - m = 0 by omega, h0, show N + d + m - d = N + m by omega]; ring
          · intro j hj hne
            rw [Finset.mem_range] at hj
            by_cases hj' : j < m
            · have e : leftOver d g 1 (m + 1 - 1 - j) = leftOver d g 1 (m - 1 - j) := by
                rw [show m + 1 - 1 - j = (m - 1 - j) + 1 by omega, hstep, if_neg (by omega), sub_zero]
              rw [if_pos (by omega), if_pos hj', e]; ring
            · rw [if_neg (by omega), if_neg hj']; ring
          · intro h; exact absurd (Finset.mem_range.mpr (by omega)) h
      rw [key]
      by_cases hd : d ≤ m
      · simp only [if_pos hd]; ring
      · simp only [if_neg hd]; ring

/-- The sums of the absolute values stay below a bound if the answer to a step dies out. -/
theorem sums_bounded (d : ℕ) (g : ℚ) (hs : Settles (leftOver d g 1)) : ∃ K : ℚ, 0 < K ∧ ∀ n, ∑ k ∈ Finset.range n, |leftOver d g 1 k| ≤ K := by
  set h := leftOver d g 1 with hh
  set c : ℚ := 1 + |g| * d with hc
  have hc0 : 0 < c := by
    have : 0 ≤ |g| * (d : ℚ) := by positivity
    linarith
  obtain ⟨N, hN⟩ := hs (1 / (2 * c)) (by positivity)
  -- blocks of this length halve everything
  set P := N + d with hP
  have halves : ∀ (B : ℚ) (n₀ : ℕ), 0 ≤ B → (∀ n, n₀ ≤ n → |h n| ≤ B) → ∀ n, n₀ + d + P ≤ n → |h n| ≤ B / 2 := by
    intro B n₀ hB hb n hn
    obtain ⟨m, rfl⟩ : ∃ m, n = N + d + m := ⟨n - P, by omega⟩
    have hm : n₀ + d ≤ m := by omega
    rw [hh, step_later, ← hh]
    have e1 : |h m * h (N + d)| ≤ B * (1 / (2 * c)) := by
      rw [abs_mul]
      exact mul_le_mul (hb m (by omega)) (le_of_lt (hN _ (by omega))) (abs_nonneg _) hB
    have e2 : |g * ∑ j ∈ Finset.range d, (if j < m then h (m - 1 - j) else 0) * h (N + j)| ≤ |g| * (d * (B * (1 / (2 * c)))) := by
      rw [abs_mul]
      refine mul_le_mul_of_nonneg_left ?_ (abs_nonneg g)
      refine le_trans (Finset.abs_sum_le_sum_abs _ _) ?_
      rw [← nsmul_eq_mul]
      refine le_trans (Finset.sum_le_card_nsmul _ _ (B * (1 / (2 * c))) ?_) (by rw [Finset.card_range])
      intro j hj
      rw [Finset.mem_range] at hj
      rw [if_pos (by omega), abs_mul]
      exact mul_le_mul (hb _ (by omega)) (le_of_lt (hN _ (by omega))) (abs_nonneg _) hB
    have e3 : B * (1 / (2 * c)) + |g| * (d * (B * (1 / (2 * c)))) = B / 2 := by
      rw [hc]
      have : (1 : ℚ) + |g| * d ≠ 0 := ne_of_gt hc0
      field_simp
    calc _ ≤ |h m * h (N + d)| + |g * ∑ j ∈ Finset.range d, (if j < m then h (m - 1 - j) else 0) * h (N + j)| := abs_sub _ _
      _ ≤ B / 2 := by rw [← e3]; exact add_le_add e1 e2
  -- a bound for all
  obtain ⟨B, hB0, hB⟩ : ∃ B : ℚ, 0 < B ∧ ∀ n, |h n| ≤ B := by
    refine ⟨∑ k ∈ Finset.range N, |h k| + 1 / (2 * c), ?_, fun n => ?_⟩
    · have : 0 ≤ ∑ k ∈ Finset.range N, |h k| := Finset.sum_nonneg fun k _ => abs_nonneg _
      have : 0 < 1 / (2 * c) := by positivity
      linarith
    · by_cases hn : n < N
      · have := Finset.single_le_sum (f := fun k => |h k|) (fun k _ => abs_nonneg (h k)) (Finset.mem_range.mpr hn)
        have : 0 < 1 / (2 * c) := by positivity
        linarith
      · have := hN n (by omega)
        have : 0 ≤ ∑ k ∈ Finset.range N, |h k| := Finset.sum_nonneg fun k _ => abs_nonneg _
        linarith
  set Q := d + P + 1 with hQ
  have geo : ∀ i n, i * Q ≤ n → |h n| ≤ B / 2 ^ i := by
    intro i
    induction i with
    | zero => intro n _; simpa using hB n
    | succ i ih =>
      intro n hn
      have := halves (B / 2 ^ i) (i * Q) (by positivity) ih n (by rw [hQ] at *; rw [Nat.add_mul] at hn; omega)
      rw [pow_succ, ← div_div]
      exact this
  have block : ∀ i, ∑ k ∈ Finset.range (i * Q), |h k| ≤ Q * B * (2 - 2 / 2 ^ i) := by
    intro i
    induction i with
    | zero => simp
    | succ i ih =>
      rw [Nat.add_mul, one_mul, Finset.sum_range_add]
      have : ∑ x ∈ Finset.range Q, |h (i * Q + x)| ≤ Q * (B / 2 ^ i) := by
        rw [← nsmul_eq_mul]
        refine le_trans (Finset.sum_le_card_nsmul _ _ (B / 2 ^ i) ?_) (by rw [Finset.card_range])
        intro x _
        exact geo i _ (by omega)
      have e : (Q : ℚ) * B * (2 - 2 / 2 ^ (i + 1)) = Q * B * (2 - 2 / 2 ^ i) + Q * (B / 2 ^ i) := by
        rw [pow_succ]
        field_simp
        ring
      rw [e]
      exact add_le_add ih this
  refine ⟨2 * (Q * B), ?_, fun n => ?_⟩
  · have : (0 : ℚ) < Q := by rw [hQ]; exact_mod_cast Nat.succ_pos _
    positivity
  · have hn : n ≤ n * Q := by rw [hQ]; exact Nat.le_mul_of_pos_right n (Nat.succ_pos _)
    have h1 : ∑ k ∈ Finset.range n, |h k| ≤ ∑ k ∈ Finset.range (n * Q), |h k| := Finset.sum_le_sum_of_subset_of_nonneg (Finset.range_mono hn) fun _ _ _ => abs_nonneg _
    have h2 := block n
    have h3 : 0 ≤ (Q : ℚ) * B * (2 / 2 ^ n) := by positivity
    linarith

private theorem settles_of_sums (x : ℕ → ℚ) (K : ℚ) (hK : ∀ n, ∑ k ∈ Finset.range n, |x k| ≤ K) : Settles x := by
  rw [settles_iff_tendsto]
  have hs : Summable fun n => |(x n : ℝ)| := by
    refine summable_of_sum_range_le (c := (K : ℝ)) (fun n => abs_nonneg _) fun n => ?_
    have := hK n
    exact_mod_cast this
  exact (hs.of_abs).tendsto_atTop_zero

/-- Everything stays bounded: an aberration that starts below 1 and changes by at most 1 per frame, measured with errors up to 1, leaves at most `K`, in every frame. -/
def StaysBelow (d : ℕ) (g K : ℚ) : Prop :=
  ∀ a b : ℕ → ℚ, |a 0| ≤ 1 → (∀ n, |a (n + 1) - a n| ≤ 1) → (∀ n, |b n| ≤ 1) → ∀ n, |lag d g a b n| ≤ K

private theorem abs_conv (h f : ℕ → ℚ) (K : ℚ) (hK : ∀ n, ∑ k ∈ Finset.range n, |h k| ≤ K) (hf : ∀ n, |f n| ≤ 1) (n : ℕ) : |∑ k ∈ Finset.range n, h (n - 1 - k) * f k| ≤ K := by
  refine le_trans (Finset.abs_sum_le_sum_abs _ _) (le_trans ?_ (hK n))
  rw [← Finset.sum_range_reflect (fun k => |h k|) n]
  refine Finset.sum_le_sum fun k _ => ?_
  rw [abs_mul]
  exact mul_le_of_le_one_right (abs_nonneg _) (hf k)

/-- **C110 (exact).** For every delay: the loop keeps what is left bounded for all aberrations with bounded changes and all bounded errors of the measurements exactly for the gains for which it removes a static aberration, those between 0 and 2 sin(π / (2 (2 d + 1))). -/
theorem C110_exact (d : ℕ) (g : ℚ) : (∃ K, StaysBelow d g K) ↔ 0 < g ∧ (g : ℝ) < 2 * Real.sin (Real.pi / (2 * (2 * d + 1))) := by
  rw [← C79_exact d g 1 one_ne_zero]
  constructor
  · rintro ⟨K, hK⟩
    -- changes that all add up
    refine settles_of_sums _ K fun n => ?_
    classical
    let sgn : ℚ → ℚ := fun q => if 0 ≤ q then 1 else -1
    have hsgn : ∀ q, q * sgn q = |q| := fun q => by
      simp only [sgn]
      by_cases hq : 0 ≤ q
      · rw [if_pos hq, mul_one, abs_of_nonneg hq]
      · rw [if_neg hq, abs_of_neg (not_le.mp hq)]; ring
    have hsgn1 : ∀ q, |sgn q| ≤ 1 := fun q => by simp only [sgn]; split_ifs <;> simp
    let a : ℕ → ℚ := fun m => ∑ k ∈ Finset.range m, sgn (leftOver d g 1 (n - 1 - k))
    have hda : ∀ m, a (m + 1) - a m = sgn (leftOver d g 1 (n - 1 - m)) := fun m => by simp only [a, Finset.sum_range_succ]; ring
    have := hK a (fun _ => 0) (by simp [a]) (fun m => by rw [hda]; exact hsgn1 _) (by simp) n
    rw [C110_response] at this
    simp only [hda, hsgn] at this
    rw [Finset.sum_range_reflect (fun k => |leftOver d g 1 k|) n] at this
    have ha0 : a 0 = 0 := by simp [a]
    simp only [ha0, zero_mul, zero_add, mul_zero, Finset.sum_const_zero, sub_zero] at this
    exact le_trans (le_abs_self _) this
  · intro hs
    obtain ⟨K, hK0, hK⟩ := sums_bounded d g hs
    refine ⟨K + K + |g| * K, fun a b h0 ha hb n => ?_⟩
    rw [C110_response]
    have e0 : |a 0 * leftOver d g 1 n| ≤ K := by
      rw [abs_mul]
      have h1 : |leftOver d g 1 n| ≤ K := le_trans (Finset.single_le_sum (f := fun k => |leftOver d g 1 k|) (fun k _ => abs_nonneg _) (Finset.mem_range.mpr (Nat.lt_succ_self n))) (hK (n + 1))
      calc |a 0| * |leftOver d g 1 n| ≤ 1 * |leftOver d g 1 n| := mul_le_mul_of_nonneg_right h0 (abs_nonneg _)
        _ ≤ K := by rw [one_mul]; exact h1
    have e1 := abs_conv (leftOver d g 1) (fun k => a (k + 1) - a k) K hK ha n
    have e2 := abs_conv (leftOver d g 1) b K hK hb (n - d)
    have e3 : |g * ∑ k ∈ Finset.range (n - d), leftOver d g 1 (n - d - 1 - k) * b k| ≤ |g| * K := by
      rw [abs_mul]
      exact mul_le_mul_of_nonneg_left e2 (abs_nonneg g)
    calc _ ≤ |a 0 * leftOver d g 1 n + ∑ k ∈ Finset.range n, leftOver d g 1 (n - 1 - k) * (a (k + 1) - a k)| + |g * ∑ k ∈ Finset.range (n - d), leftOver d g 1 (n - d - 1 - k) * b k| := abs_sub _ _
      _ ≤ (|a 0 * leftOver d g 1 n| + |∑ k ∈ Finset.range n, leftOver d g 1 (n - 1 - k) * (a (k + 1) - a k)|) + |g * ∑ k ∈ Finset.range (n - d), leftOver d g 1 (n - d - 1 - k) * b k| := by gcongr; exact abs_add_le _ _
      _ ≤ K + K + |g| * K := add_le_add (add_le_add e0 e1) e3

/-- The default gain 0.6 keeps everything bounded with a delay of two frames but not with three; there the bound of `C110_bounded` does not apply any more. -/
example : (∃ K, StaysBelow 2 (3 / 5) K) ∧ ¬∃ K, StaysBelow 3 (3 / 5) K := by
  constructor
  · rw [C110_exact, ← C79_exact 2 _ 1 one_ne_zero]
    exact (C79_default_gain 2 1 one_ne_zero).mpr (le_refl 2)
  · rw [C110_exact, ← C79_exact 3 _ 1 one_ne_zero, C79_default_gain 3 1 one_ne_zero]
    omega

/-! ### Noise with a delay -/

/-- Errors of the first `n` frames over a finite set of runs with probabilities `P`: mean zero, variance `σ2`, uncorrelated. -/
def White {Ω : Type} [Fintype Ω] (P : Ω → ℚ) (b : Ω → ℕ → ℚ) (σ2 : ℚ) (n : ℕ) : Prop :=
  (∀ ω, 0 ≤ P ω) ∧ ∑ ω, P ω = 1 ∧ 0 ≤ σ2 ∧ (∀ k < n, ∑ ω, P ω * b ω k = 0) ∧ (∀ k < n, ∑ ω, P ω * (b ω k * b ω k) = σ2) ∧ ∀ k < n, ∀ l < n, k ≠ l → ∑ ω, P ω * (b ω k * b ω l) = 0

/-- **C110 (noise, any delay).** The mean square of what uncorrelated errors of variance `σ2` leave in frame `n`: the square of the gain times the sum of the squares of what is left of a step after 0, 1, …, `n - d - 1` frames. -/
theorem C110_noise_any {Ω : Type} [Fintype Ω] (P : Ω → ℚ) (b : Ω → ℕ → ℚ) (σ2 : ℚ) (d n : ℕ) (g : ℚ) (hw : White P b σ2 (n - d)) :
    ∑ ω, P ω * (lag d g (fun _ => 0) (b ω) n) ^ 2 = g ^ 2 * (∑ k ∈ Finset.range (n - d), leftOver d g 1 k ^ 2) * σ2 := by
  obtain ⟨_, _, _, _, hvar, hcov⟩ := hw
  set m := n - d with hm
  have e0 : ∀ ω, P ω * (lag d g (fun _ => 0) (b ω) n) ^ 2 = g ^ 2 * ∑ k ∈ Finset.range m, ∑ l ∈ Finset.range m, leftOver d g 1 (m - 1 - k) * leftOver d g 1 (m - 1 - l) * (P ω * (b ω k * b ω l)) := by
    intro ω
    rw [C110_response]
    simp only [zero_mul, sub_self, mul_zero, Finset.sum_const_zero, add_zero, zero_sub, neg_sq, mul_pow]
    rw [sq (∑ k ∈ Finset.range m, _), Finset.sum_mul_sum, mul_left_comm, Finset.mul_sum]
    congr 1
    refine Finset.sum_congr rfl fun k _ => ?_
    rw [Finset.mul_sum]
    exact Finset.sum_congr rfl fun l _ => by ring
  rw [Finset.sum_congr rfl fun ω _ => e0 ω, ← Finset.mul_sum, Finset.sum_comm, mul_assoc]
  congr 1
  rw [← Finset.sum_range_reflect (fun k => leftOver d g 1 k ^ 2) m, Finset.sum_mul]
  refine Finset.sum_congr rfl fun k hk => ?_
  rw [Finset.sum_comm]
  have e1 : ∀ l ∈ Finset.range m, ∑ ω, leftOver d g 1 (m - 1 - k) * leftOver d g 1 (m - 1 - l) * (P ω * (b ω k * b ω l)) = leftOver d g 1 (m - 1 - k) * leftOver d g 1 (m - 1 - l) * ∑ ω, P ω * (b ω k * b ω l) :=
    fun l _ => by rw [Finset.mul_sum]
  rw [Finset.sum_congr rfl e1, Finset.sum_eq_single k]
  · rw [hvar k (Finset.mem_range.mp hk)]; ring
  · intro l hl hne
    rw [hcov k (Finset.mem_range.mp hk) l (Finset.mem_range.mp hl) (Ne.symm hne), mul_zero]
  · intro h; exact absurd hk h

/-- Sum of squares for a delay of one frame, with what is missing to the limit. -/
theorem squares_one (g : ℚ) (h0 : 0 < g) (h1 : g < 1) (m : ℕ) :
    g ^ 2 * ∑ k ∈ Finset.range m, leftOver 1 g 1 k ^ 2 = g * (1 + g) / ((1 - g) * (2 + g)) *
      (1 - ((leftOver 1 g 1 (m + 1) - g / (1 + g) * leftOver 1 g 1 m) ^ 2 + (2 * g + g ^ 2) / (1 + g) ^ 2 * leftOver 1 g 1 m ^ 2)) := by
  have hg : g ≠ 0 := ne_of_gt h0
  have hg1 : (1 : ℚ) - g ≠ 0 := by linarith
  have hg2 : (2 : ℚ) + g ≠ 0 := by linarith
  have hg3 : (1 : ℚ) + g ≠ 0 := by linarith
  induction m with
  | zero =>
    have e0 : leftOver 1 g 1 0 = 1 := by rw [leftOver]
    have e1 : leftOver 1 g 1 (0 + 1) = 1 := by rw [leftOver, if_neg (by omega), e0, sub_zero]
    rw [Finset.sum_range_zero, e0, e1]
    field_simp
    ring
  | succ m ih =>
    rw [Finset.sum_range_succ, mul_add, ih]
    have e : leftOver 1 g 1 (m + 1 + 1) = leftOver 1 g 1 (m + 1) - g * leftOver 1 g 1 m := by
      rw [leftOver, if_pos (by omega), show m + 1 - 1 = m by omega]
    rw [e]
    generalize leftOver 1 g 1 (m + 1) = x
    generalize leftOver 1 g 1 m = y
    field_simp
    ring

/-- **C110 (noise, one frame of delay).** Uncorrelated errors of variance `σ2` leave, in every frame, at most `g (1 + g) / ((1 - g) (2 + g)) σ2`, and this is approached. -/
theorem C110_noise_one (g : ℚ) (h0 : 0 < g) (h1 : g < 1) :
    (∀ (Ω : Type) (_ : Fintype Ω) (P : Ω → ℚ) (b : Ω → ℕ → ℚ) (σ2 : ℚ) (n : ℕ), White P b σ2 (n - 1) → ∑ ω, P ω * (lag 1 g (fun _ => 0) (b ω) n) ^ 2 ≤ g * (1 + g) / ((1 - g) * (2 + g)) * σ2) ∧
    (∀ ε : ℚ, 0 < ε → ∃ N, ∀ (Ω : Type) (_ : Fintype Ω) (P : Ω → ℚ) (b : Ω → ℕ → ℚ) (σ2 : ℚ) (n : ℕ), N ≤ n → White P b σ2 (n - 1) →
      (g * (1 + g) / ((1 - g) * (2 + g)) - ε) * σ2 ≤ ∑ ω, P ω * (lag 1 g (fun _ => 0) (b ω) n) ^ 2) := by
  have hpos : 0 < g * (1 + g) / ((1 - g) * (2 + g)) := by
    have : 0 < 1 - g := by linarith
    positivity
  set c := g * (1 + g) / ((1 - g) * (2 + g)) with hc
  constructor
  · intro Ω _ P b σ2 n hw
    rw [C110_noise_any P b σ2 1 n g hw, squares_one g h0 h1]
    refine mul_le_mul_of_nonneg_right ?_ hw.2.2.1
    refine mul_le_of_le_one_right (le_of_lt hpos) ?_
    generalize n - 1 = m
    have : 0 ≤ (2 * g + g ^ 2) / (1 + g) ^ 2 * leftOver 1 g 1 m ^ 2 := by positivity
    have := sq_nonneg (leftOver 1 g 1 (m + 1) - g / (1 + g) * leftOver 1 g 1 m)
    linarith
  · intro ε hε
    have hs := (C79_delay_one_stable g 1 one_ne_zero).mpr ⟨h0, h1⟩
    -- small steps are left with squares below themselves
    obtain ⟨N, hN⟩ := hs (min (1 / 2) (ε / (8 * c))) (lt_min (by norm_num) (by positivity))
    refine ⟨N + 1, fun Ω _ P b σ2 n hn hw => ?_⟩
    rw [C110_noise_any P b σ2 1 n g hw, squares_one g h0 h1]
    refine mul_le_mul_of_nonneg_right ?_ hw.2.2.1
    obtain ⟨m, hm⟩ : ∃ m, n - 1 = m := ⟨_, rfl⟩
    rw [hm]
    have hx := hN (m + 1) (by omega)
    have hy := hN m (by omega)
    generalize leftOver 1 g 1 (m + 1) = x at hx ⊢
    generalize leftOver 1 g 1 m = y at hy ⊢
    set δ := min (1 / 2) (ε / (8 * c)) with hδ
    have hδ0 : 0 < δ := lt_min (by norm_num) (by positivity)
    have hδ1 : δ ≤ 1 / 2 := min_le_left _ _
    have hδ2 : c * (8 * δ) ≤ ε := by
      have : δ ≤ ε / (8 * c) := min_le_right _ _
      rw [le_div_iff₀ (by positivity)] at this
      linarith
    have hr0 : 0 ≤ g / (1 + g) := by positivity
    have hr1 : g / (1 + g) ≤ 1 := by rw [div_le_one (by linarith)]; linarith
    have hq0 : 0 ≤ (2 * g + g ^ 2) / (1 + g) ^ 2 := by positivity
    have hq1 : (2 * g + g ^ 2) / (1 + g) ^ 2 ≤ 1 := by rw [div_le_one (by positivity)]; linarith
    have hu : |x - g / (1 + g) * y| ≤ 2 * δ := by
      calc |x - g / (1 + g) * y| ≤ |x| + |g / (1 + g) * y| := abs_sub _ _
        _ ≤ δ + δ := by
          refine add_le_add (le_of_lt hx) ?_
          rw [abs_mul, abs_of_nonneg hr0]
          calc g / (1 + g) * |y| ≤ 1 * |y| := mul_le_mul_of_nonneg_right hr1 (abs_nonneg _)
            _ ≤ δ := by rw [one_mul]; exact le_of_lt hy
        _ = 2 * δ := by ring
    have h1' : (x - g / (1 + g) * y) ^ 2 ≤ (2 * δ) ^ 2 := sq_le_sq' (by linarith [(abs_le.mp hu).1]) (abs_le.mp hu).2
    have h2' : y ^ 2 ≤ δ ^ 2 := sq_le_sq' (by linarith [(abs_le.mp (le_of_lt hy)).1]) (abs_le.mp (le_of_lt hy)).2
    have h3' : (2 * g + g ^ 2) / (1 + g) ^ 2 * y ^ 2 ≤ δ ^ 2 := le_trans (mul_le_of_le_one_left (sq_nonneg y) hq1) h2'
    have h4' : (x - g / (1 + g) * y) ^ 2 + (2 * g + g ^ 2) / (1 + g) ^ 2 * y ^ 2 ≤ 8 * δ := by nlinarith
    have h5' : c * ((x - g / (1 + g) * y) ^ 2 + (2 * g + g ^ 2) / (1 + g) ^ 2 * y ^ 2) ≤ c * (8 * δ) := mul_le_mul_of_nonneg_left h4' (le_of_lt hpos)
    linarith

/-- Errors as in `White` exist for any number of frames: one of `n²` runs has an error of plus or minus `n` in a frame. -/
theorem White.exists (n : ℕ) : ∃ (Ω : Type) (_ : Fintype Ω) (P : Ω → ℚ) (b : Ω → ℕ → ℚ), White P b 1 n := by
  have hN : (0 : ℚ) < ((n + 1 : ℕ) : ℚ) := by exact_mod_cast Nat.succ_pos n
  set N := n + 1 with hNd
  refine ⟨Fin (N * N) × Bool, inferInstance, fun _ => 1 / (2 * (N * N)), fun ω k => if (ω.1 : ℕ) = k then (if ω.2 then N else -N) else 0, ?_, ?_, by norm_num, ?_, ?_, ?_⟩
  · intro ω; positivity
  · rw [Finset.sum_const, Finset.card_univ, Fintype.card_prod, Fintype.card_fin, Fintype.card_bool, nsmul_eq_mul]
    push_cast
    field_simp
  · intro k _
    rw [Fintype.sum_prod_type]
    refine Finset.sum_eq_zero fun i _ => ?_
    simp only [Fintype.sum_bool]
    by_cases h1 : (i : ℕ) = k <;> simp [h1]
  · intro k hk
    have hkN : k < N * N := lt_of_lt_of_le (by omega : k < N) (Nat.le_mul_self N)
    rw [Fintype.sum_prod_type, Finset.sum_eq_single ⟨k, hkN⟩]
    · simp only [Fintype.sum_bool]
      simp
      field_simp
      norm_num
    · intro i _ hi
      have : (i : ℕ) ≠ k := fun h => hi (Fin.ext h)
      simp [this]
    · simp
  · intro k _ l _ hkl
    rw [Fintype.sum_prod_type]
    refine Finset.sum_eq_zero fun i _ => ?_
    simp only [Fintype.sum_bool]
    by_cases h1 : (i : ℕ) = k
    · have : (i : ℕ) ≠ l := fun h => hkl (h1.symm.trans h)
      simp [this]
    · simp [h1]

example : ∃ (Ω : Type) (_ : Fintype Ω) (P : Ω → ℚ) (b : Ω → ℕ → ℚ), White P b 1 100 := White.exists 100

/-- **C110 (noise stays bounded).** For every delay and gain other than 0: uncorrelated errors of the measurements leave a bounded mean square exactly for the gains for which a static aberration is removed. -/
theorem C110_noise_exact (d : ℕ) (g : ℚ) (hg : g ≠ 0) :
    (∃ K : ℚ, ∀ (Ω : Type) (_ : Fintype Ω) (P : Ω → ℚ) (b : Ω → ℕ → ℚ) (σ2 : ℚ) (n : ℕ), White P b σ2 (n - d) → ∑ ω, P ω * (lag d g (fun _ => 0) (b ω) n) ^ 2 ≤ K * σ2) ↔
      0 < g ∧ (g : ℝ) < 2 * Real.sin (Real.pi / (2 * (2 * d + 1))) := by
  rw [← C79_exact d g 1 one_ne_zero]
  have hg2 : 0 < g ^ 2 := by positivity
  constructor
  · rintro ⟨K, hK⟩
    rw [settles_iff_tendsto]
    have hb : ∀ m, ∑ k ∈ Finset.range m, leftOver d g 1 k ^ 2 ≤ K / g ^ 2 := by
      intro m
      obtain ⟨Ω, hΩ, P, b, hw⟩ := White.exists m
      have hw' : White P b 1 (m + d - d) := by rw [Nat.add_sub_cancel]; exact hw
      have := hK Ω hΩ P b 1 (m + d) hw'
      rw [C110_noise_any P b 1 d (m + d) g hw', Nat.add_sub_cancel, mul_one, mul_one] at this
      rw [le_div_iff₀ hg2]
      linarith
    have hs : Summable fun n => (leftOver d g 1 n : ℝ) ^ 2 := by
      refine summable_of_sum_range_le (c := ((K / g ^ 2 : ℚ) : ℝ)) (fun n => sq_nonneg _) fun n => ?_
      have := hb n
      exact_mod_cast this
    have ht := hs.tendsto_atTop_zero
    have := (Real.continuous_sqrt.tendsto 0).comp ht
    rw [Real.sqrt_zero] at this
    rw [tendsto_zero_iff_abs_tendsto_zero]
    refine this.congr fun n => ?_
    simp [Real.sqrt_sq_eq_abs]
  · intro hs
    obtain ⟨K, hK0, hK⟩ := sums_bounded d g hs
    refine ⟨g ^ 2 * (K * K), fun Ω _ P b σ2 n hw => ?_⟩
    rw [C110_noise_any P b σ2 d n g hw]
    refine mul_le_mul_of_nonneg_right (mul_le_mul_of_nonneg_left ?_ (le_of_lt hg2)) hw.2.2.1
    calc ∑ k ∈ Finset.range (n - d), leftOver d g 1 k ^ 2 ≤ ∑ k ∈ Finset.range (n - d), K * |leftOver d g 1 k| := by
          refine Finset.sum_le_sum fun k _ => ?_
          rw [← sq_abs, sq]
          refine mul_le_mul_of_nonneg_right ?_ (abs_nonneg _)
          exact le_trans (Finset.single_le_sum (f := fun k => |leftOver d g 1 k|) (fun k _ => abs_nonneg _) (Finset.mem_range.mpr (Nat.lt_succ_self k))) (hK (k + 1))
      _ ≤ K * K := by rw [← Finset.mul_sum]; exact mul_le_mul_of_nonneg_left (hK _) (le_of_lt hK0)

/-- With a gain of a half the noise that is left is a third without delay and three fifths with a delay of one frame. -/
example : (1 / 2 : ℚ) / (2 - 1 / 2) = 1 / 3 ∧ (1 / 2 : ℚ) * (1 + 1 / 2) / ((1 - 1 / 2) * (2 + 1 / 2)) = 3 / 5 := by norm_num

end Soapy.Props
