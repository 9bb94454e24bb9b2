/-
Property theorems C166: turbulence and noise together, and the gain that leaves least.
-/
import Verif.Props.WholeNoise

namespace Soapy.Props

open Filter Topology Soapy.Mirror Soapy.Los Soapy.Whole Soapy.Loop Soapy.Control

/-- An aberration and errors of measurement over a finite set of runs with probabilities `P`, frames below `n`: the aberration starts at `c` and changes by uncorrelated steps of variance `v`, the errors are uncorrelated, of variance `σ2`, and uncorrelated with the steps. -/
def Walk {Ω : Type} [Fintype Ω] (P : Ω → ℚ) (a b : Ω → ℕ → ℚ) (c v σ2 : ℚ) (n : ℕ) : Prop :=
  (∀ ω, a ω 0 = c) ∧ White P (fun ω k => a ω (k + 1) - a ω k) v n ∧ White P b σ2 n ∧ ∀ k < n, ∀ l < n, ∑ ω, P ω * ((a ω (k + 1) - a ω k) * b ω l) = 0

section
variable {Ω : Type} [Fintype Ω]

/-- Mean square of a weighted sum of uncorrelated numbers. -/
theorem weighted_square (P : Ω → ℚ) (x : Ω → ℕ → ℚ) (v : ℚ) (m : ℕ) (w : ℕ → ℚ) (hvar : ∀ k < m, ∑ ω, P ω * (x ω k * x ω k) = v) (hcov : ∀ k < m, ∀ l < m, k ≠ l → ∑ ω, P ω * (x ω k * x ω l) = 0) :
    ∑ ω, P ω * (∑ k ∈ Finset.range m, w k * x ω k) ^ 2 = (∑ k ∈ Finset.range m, w k ^ 2) * v := by
  have e0 : ∀ ω, P ω * (∑ k ∈ Finset.range m, w k * x ω k) ^ 2 = ∑ k ∈ Finset.range m, ∑ l ∈ Finset.range m, w k * w l * (P ω * (x ω k * x ω l)) := by
    intro ω
    rw [sq, Finset.sum_mul_sum, Finset.mul_sum]
    refine Finset.sum_congr rfl fun k _ => ?_
    rw [Finset.mul_sum]
    exact Finset.sum_congr rfl fun l _ => by ring
  rw [Finset.sum_congr rfl fun ω _ => e0 ω, Finset.sum_comm, Finset.sum_mul]
  refine Finset.sum_congr rfl fun k hk => ?_
  rw [Finset.sum_comm, Finset.sum_congr rfl fun l _ => (Finset.mul_sum _ _ _).symm, Finset.sum_eq_single k]
  · rw [hvar k (Finset.mem_range.mp hk)]; ring
  · intro l hl hne
    rw [hcov k (Finset.mem_range.mp hk) l (Finset.mem_range.mp hl) (Ne.symm hne), mul_zero]
  · intro h; exact absurd hk h

theorem weighted_cross (P : Ω → ℚ) (x y : Ω → ℕ → ℚ) (m m' : ℕ) (w w' : ℕ → ℚ) (h : ∀ k < m, ∀ l < m', ∑ ω, P ω * (x ω k * y ω l) = 0) :
    ∑ ω, P ω * ((∑ k ∈ Finset.range m, w k * x ω k) * ∑ l ∈ Finset.range m', w' l * y ω l) = 0 := by
  have e0 : ∀ ω, P ω * ((∑ k ∈ Finset.range m, w k * x ω k) * ∑ l ∈ Finset.range m', w' l * y ω l) = ∑ k ∈ Finset.range m, ∑ l ∈ Finset.range m', w k * w' l * (P ω * (x ω k * y ω l)) := by
    intro ω
    rw [Finset.sum_mul_sum, Finset.mul_sum]
    refine Finset.sum_congr rfl fun k _ => ?_
    rw [Finset.mul_sum]
    exact Finset.sum_congr rfl fun l _ => by ring
  rw [Finset.sum_congr rfl fun ω _ => e0 ω, Finset.sum_comm]
  refine Finset.sum_eq_zero fun k hk => ?_
  rw [Finset.sum_comm]
  refine Finset.sum_eq_zero fun l hl => ?_
  rw [← Finset.mul_sum, h k (Finset.mem_range.mp hk) l (Finset.mem_range.mp hl), mul_zero]

theorem weighted_mean (P : Ω → ℚ) (x : Ω → ℕ → ℚ) (m : ℕ) (w : ℕ → ℚ) (h : ∀ k < m, ∑ ω, P ω * x ω k = 0) : ∑ ω, P ω * ∑ k ∈ Finset.range m, w k * x ω k = 0 := by
  have e0 : ∀ ω, P ω * ∑ k ∈ Finset.range m, w k * x ω k = ∑ k ∈ Finset.range m, w k * (P ω * x ω k) := by
    intro ω
    rw [Finset.mul_sum]
    exact Finset.sum_congr rfl fun k _ => by ring
  rw [Finset.sum_congr rfl fun ω _ => e0 ω, Finset.sum_comm]
  refine Finset.sum_eq_zero fun k hk => ?_
  rw [← Finset.mul_sum, h k (Finset.mem_range.mp hk), mul_zero]

/-- **C166 (mean square).** An aberration that walks at random, measured with noise: the mean square of what is left in frame `n`, for all gains and delays. The start, the walk and the noise add up. -/
theorem C166_square (P : Ω → ℚ) (a b : Ω → ℕ → ℚ) (c v σ2 : ℚ) (d n : ℕ) (g : ℚ) (h : Walk P a b c v σ2 n) :
    ∑ ω, P ω * lag d g (a ω) (b ω) n ^ 2 = c ^ 2 * leftOver d g 1 n ^ 2 + (∑ k ∈ Finset.range n, leftOver d g 1 k ^ 2) * v + g ^ 2 * (∑ k ∈ Finset.range (n - d), leftOver d g 1 k ^ 2) * σ2 := by
  obtain ⟨h0, ⟨_, hP, _, hma, hva, hca⟩, ⟨_, _, _, hmb, hvb, hcb⟩, hx⟩ := h
  set u := leftOver d g 1 with hu
  set A : Ω → ℚ := fun ω => ∑ k ∈ Finset.range n, u (n - 1 - k) * (a ω (k + 1) - a ω k) with hA
  set B : Ω → ℚ := fun ω => ∑ k ∈ Finset.range (n - d), u (n - d - 1 - k) * b ω k with hB
  have hAA : ∑ ω, P ω * A ω ^ 2 = (∑ k ∈ Finset.range n, u k ^ 2) * v := by
    rw [← Finset.sum_range_reflect (fun k => u k ^ 2) n]
    exact weighted_square P (fun ω k => a ω (k + 1) - a ω k) v n (fun k => u (n - 1 - k)) hva hca
  have hBB : ∑ ω, P ω * B ω ^ 2 = (∑ k ∈ Finset.range (n - d), u k ^ 2) * σ2 := by
    rw [← Finset.sum_range_reflect (fun k => u k ^ 2) (n - d)]
    exact weighted_square P b σ2 (n - d) (fun k => u (n - d - 1 - k)) (fun k hk => hvb k (by omega)) fun k hk l hl => hcb k (by omega) l (by omega)
  have hAB : ∑ ω, P ω * (A ω * B ω) = 0 :=
    weighted_cross P (fun ω k => a ω (k + 1) - a ω k) b n (n - d) (fun k => u (n - 1 - k)) (fun k => u (n - d - 1 - k)) fun k hk l hl => hx k hk l (by omega)
  have hAm : ∑ ω, P ω * A ω = 0 := weighted_mean P (fun ω k => a ω (k + 1) - a ω k) n (fun k => u (n - 1 - k)) hma
  have hBm : ∑ ω, P ω * B ω = 0 := weighted_mean P b (n - d) (fun k => u (n - d - 1 - k)) fun k hk => hmb k (by omega)
  have e : ∀ ω, P ω * lag d g (a ω) (b ω) n ^ 2 = (c * u n) ^ 2 * P ω + P ω * A ω ^ 2 + g ^ 2 * (P ω * B ω ^ 2) + 2 * (c * u n) * (P ω * A ω) - 2 * (c * u n) * g * (P ω * B ω) - 2 * g * (P ω * (A ω * B ω)) := by
    intro ω
    rw [C110_response, h0]
    simp only [hA, hB]
    ring
  rw [Finset.sum_congr rfl fun ω _ => e ω]
  simp only [Finset.sum_add_distrib, Finset.sum_sub_distrib, ← Finset.mul_sum]
  rw [hP, hAA, hBB, hAm, hBm, hAB]
  ring

end

/-- Walks and noise as in `Walk` exist for any number of frames and any start. -/
theorem Walk.exists (n : ℕ) (c : ℚ) : ∃ (Ω : Type) (_ : Fintype Ω) (P : Ω → ℚ) (a b : Ω → ℕ → ℚ), Walk P a b c 1 1 n := by
  obtain ⟨Ω, hΩ, P, x, h1, h2, h3, hm, hv, hc⟩ := White.exists (n + n)
  refine ⟨Ω, hΩ, P, fun ω k => c + ∑ j ∈ Finset.range k, x ω j, fun ω k => x ω (n + k), fun ω => by simp, ?_, ?_, ?_⟩
  · simp only [Finset.sum_range_succ, add_sub_add_left_eq_sub, add_sub_cancel_left]
    exact ⟨h1, h2, h3, fun k hk => hm k (by omega), fun k hk => hv k (by omega), fun k hk l hl => hc k (by omega) l (by omega)⟩
  · exact ⟨h1, h2, h3, fun k hk => hm _ (by omega), fun k hk => hv _ (by omega), fun k hk l hl hne => hc _ (by omega) _ (by omega) (by omega)⟩
  · intro k hk l hl
    simp only [Finset.sum_range_succ, add_sub_add_left_eq_sub, add_sub_cancel_left]
    exact hc _ (by omega) _ (by omega) (by omega)

/-- **C166 (bounded).** What is left of aberrations that walk at random — which no bound holds — stays bounded in the mean square exactly with the gains for which the loop is stable. -/
theorem C166_bounded (d : ℕ) (g : ℚ) :
    (∃ K : ℚ, ∀ (Ω : Type) (_ : Fintype Ω) (P : Ω → ℚ) (a b : Ω → ℕ → ℚ) (c v σ2 : ℚ) (n : ℕ), Walk P a b c v σ2 n → ∑ ω, P ω * lag d g (a ω) (b ω) n ^ 2 ≤ K * (c ^ 2 + v + σ2)) ↔ StableGain d g := by
  rw [StableGain, ← C79_exact d g 1 one_ne_zero]
  constructor
  · rintro ⟨K, hK⟩
    rw [settles_iff_tendsto]
    have hb : ∀ m, ∑ k ∈ Finset.range m, leftOver d g 1 k ^ 2 ≤ K * 2 := by
      intro m
      obtain ⟨Ω, hΩ, P, a, b, hw⟩ := Walk.exists m 0
      have := hK Ω hΩ P a b 0 1 1 m hw
      rw [C166_square P a b 0 1 1 d m g hw] at this
      have h2 : 0 ≤ g ^ 2 * ∑ k ∈ Finset.range (m - d), leftOver d g 1 k ^ 2 := by positivity
      linarith
    have hs : Summable fun n => (leftOver d g 1 n : ℝ) ^ 2 := by
      refine summable_of_sum_range_le (c := ((K * 2 : ℚ) : ℝ)) (fun n => sq_nonneg _) fun n => ?_
      have := hb n
      exact_mod_cast this
    have := (Real.continuous_sqrt.tendsto 0).comp hs.tendsto_atTop_zero
    rw [Real.sqrt_zero] at this
    rw [tendsto_zero_iff_abs_tendsto_zero]
    refine this.congr fun n => ?_
    simp [Real.sqrt_sq_eq_abs]
  · intro hs
    obtain ⟨K, hK0, hK⟩ := sums_bounded d g hs
    have hu : ∀ k, |leftOver d g 1 k| ≤ K := fun k =>
      le_trans (Finset.single_le_sum (f := fun k => |leftOver d g 1 k|) (fun k _ => abs_nonneg _) (Finset.mem_range.mpr (Nat.lt_succ_self k))) (hK (k + 1))
    have hsq : ∀ m, ∑ k ∈ Finset.range m, leftOver d g 1 k ^ 2 ≤ K * K := by
      intro m
      calc ∑ k ∈ Finset.range m, leftOver d g 1 k ^ 2 ≤ ∑ k ∈ Finset.range m, K * |leftOver d g 1 k| := by
            refine Finset.sum_le_sum fun k _ => ?_
            rw [← sq_abs, sq]
            exact mul_le_mul_of_nonneg_right (hu k) (abs_nonneg _)
        _ ≤ K * K := by rw [← Finset.mul_sum]; exact mul_le_mul_of_nonneg_left (hK _) (le_of_lt hK0)
    refine ⟨K * K * (1 + g ^ 2), fun Ω _ P a b c v σ2 n hw => ?_⟩
    rw [C166_square P a b c v σ2 d n g hw]
    have hv := hw.2.1.2.2.1
    have hσ := hw.2.2.1.2.2.1
    have h1 : leftOver d g 1 n ^ 2 ≤ K * K := by
      rw [← sq_abs, sq]
      exact mul_le_mul (hu n) (hu n) (abs_nonneg _) hK0.le
    have t1 : c ^ 2 * leftOver d g 1 n ^ 2 ≤ c ^ 2 * (K * K) := mul_le_mul_of_nonneg_left h1 (sq_nonneg c)
    have t2 : (∑ k ∈ Finset.range n, leftOver d g 1 k ^ 2) * v ≤ K * K * v := mul_le_mul_of_nonneg_right (hsq n) hv
    have t3 : g ^ 2 * (∑ k ∈ Finset.range (n - d), leftOver d g 1 k ^ 2) * σ2 ≤ g ^ 2 * (K * K) * σ2 := mul_le_mul_of_nonneg_right (mul_le_mul_of_nonneg_left (hsq _) (sq_nonneg g)) hσ
    have p1 : 0 ≤ K * K * g ^ 2 * c ^ 2 := by positivity
    have p2 : 0 ≤ K * K * g ^ 2 * v := by positivity
    have p3 : 0 ≤ K * K * σ2 := by positivity
    nlinarith

/-- Without delay: sum of the squares of what is left of a step. -/
theorem squares_none (g : ℚ) (h0 : 0 < g) (h2 : g < 2) (m : ℕ) : ∑ k ∈ Finset.range m, leftOver 0 g 1 k ^ 2 = (1 - leftOver 0 g 1 m ^ 2) / (g * (2 - g)) := by
  have hg : g * (2 - g) ≠ 0 := mul_ne_zero h0.ne' (by linarith)
  rw [eq_div_iff hg]
  induction m with
  | zero => rw [leftOver]; simp
  | succ m ih =>
    rw [Finset.sum_range_succ, add_mul, ih]
    have e : leftOver 0 g 1 (m + 1) = leftOver 0 g 1 m - g * leftOver 0 g 1 m := by rw [leftOver, if_pos (Nat.zero_le _), Nat.sub_zero]
    rw [e]
    ring

private theorem settles_sq (f : ℕ → ℚ) (hf : Settles f) : Settles fun n => f n ^ 2 := by
  intro ε hε
  obtain ⟨N, hN⟩ := hf (min 1 ε) (lt_min one_pos hε)
  refine ⟨N, fun n hn => ?_⟩
  have h1 := hN n hn
  have h2 : |f n| < 1 := h1.trans_le (min_le_left _ _)
  have h3 : |f n| < ε := h1.trans_le (min_le_right _ _)
  dsimp only
  rw [abs_pow, sq]
  nlinarith [abs_nonneg (f n)]

/-- **C166 (no delay).** The mean square of what is left settles at `(v + g² σ2) / (g (2 - g))`, whatever the start. -/
theorem C166_no_delay (g : ℚ) (h0 : 0 < g) (h2 : g < 2) (c v σ2 ε : ℚ) (hε : 0 < ε) :
    ∃ N, ∀ (Ω : Type) (_ : Fintype Ω) (P : Ω → ℚ) (a b : Ω → ℕ → ℚ) (n : ℕ), N ≤ n → Walk P a b c v σ2 n → |∑ ω, P ω * lag 0 g (a ω) (b ω) n ^ 2 - (v + g ^ 2 * σ2) / (g * (2 - g))| < ε := by
  have hs := settles_sq _ ((C79_exact 0 g 1 one_ne_zero).mpr ⟨h0, by
    have : Real.pi / (2 * (2 * ((0 : ℕ) : ℝ) + 1)) = Real.pi / 2 := by norm_num
    rw [this, Real.sin_pi_div_two]
    exact_mod_cast (by linarith : g < 2 * 1)⟩)
  have hG : 0 < g * (2 - g) := mul_pos h0 (by linarith)
  set D := c ^ 2 - (v + g ^ 2 * σ2) / (g * (2 - g)) with hD
  obtain ⟨N, hN⟩ := hs (ε / (|D| + 1)) (by positivity)
  refine ⟨N, fun Ω _ P a b n hn hw => ?_⟩
  rw [C166_square P a b c v σ2 0 n g hw, Nat.sub_zero, squares_none g h0 h2]
  have h1 := hN n hn
  dsimp only at h1
  rw [lt_div_iff₀ (by positivity)] at h1
  set y := leftOver 0 g 1 n ^ 2 with hy
  have e : c ^ 2 * y + (1 - y) / (g * (2 - g)) * v + g ^ 2 * ((1 - y) / (g * (2 - g))) * σ2 - (v + g ^ 2 * σ2) / (g * (2 - g)) = y * D := by
    rw [hD]
    field_simp
    ring
  rw [e, abs_mul]
  nlinarith [abs_nonneg y, abs_nonneg D]

/-- **C166 (the best gain).** Without delay, whatever the variances of the steps and of the noise, there is exactly one gain that leaves least; it is at most one, it balances `σ2 g² = v (1 - g)`, and it leaves `v / g`. -/
theorem C166_best (v σ2 : ℝ) (hv : 0 < v) (hσ : 0 ≤ σ2) : ∃! g₀ : ℝ, (0 < g₀ ∧ g₀ ≤ 1) ∧ σ2 * g₀ ^ 2 = v * (1 - g₀) ∧ (v + g₀ ^ 2 * σ2) / (g₀ * (2 - g₀)) = v / g₀ ∧
    ∀ g : ℝ, 0 < g → g < 2 → g ≠ g₀ → (v + g₀ ^ 2 * σ2) / (g₀ * (2 - g₀)) < (v + g ^ 2 * σ2) / (g * (2 - g)) := by
  -- the root of the balance
  obtain ⟨g₀, ⟨hg0, hg1⟩, hbal⟩ : ∃ g₀ : ℝ, (0 < g₀ ∧ g₀ ≤ 1) ∧ σ2 * g₀ ^ 2 = v * (1 - g₀) := by
    have hc : ContinuousOn (fun g : ℝ => σ2 * g ^ 2 - v * (1 - g)) (Set.Icc 0 1) := by fun_prop
    have := intermediate_value_Icc (zero_le_one' ℝ) hc
    obtain ⟨g₀, hg, h0⟩ := this (show (0 : ℝ) ∈ _ from ⟨by norm_num; exact hv.le, by norm_num; exact hσ⟩)
    dsimp only at h0
    refine ⟨g₀, ⟨lt_of_le_of_ne hg.1 fun h => ?_, hg.2⟩, by linarith⟩
    rw [← h] at h0
    norm_num at h0
    exact hv.ne' h0
  have hval : (v + g₀ ^ 2 * σ2) / (g₀ * (2 - g₀)) = v / g₀ := by
    have h2 : (2 : ℝ) - g₀ ≠ 0 := by linarith
    rw [div_eq_div_iff (mul_ne_zero hg0.ne' h2) hg0.ne']
    nlinarith
  have hless : ∀ g : ℝ, 0 < g → g < 2 → g ≠ g₀ → (v + g₀ ^ 2 * σ2) / (g₀ * (2 - g₀)) < (v + g ^ 2 * σ2) / (g * (2 - g)) := by
    intro g h0 h2 hne
    rw [hval, div_lt_div_iff₀ hg0 (mul_pos h0 (by linarith))]
    have hsq : 0 < (g - g₀) ^ 2 := by
      have : g - g₀ ≠ 0 := sub_ne_zero.mpr hne
      positivity
    have key : g₀ * ((v + g ^ 2 * σ2) * g₀ - v * (g * (2 - g))) = v * (g - g₀) ^ 2 := by linear_combination g ^ 2 * hbal
    have : 0 < g₀ * ((v + g ^ 2 * σ2) * g₀ - v * (g * (2 - g))) := by
      rw [key]; positivity
    have := (mul_pos_iff_of_pos_left hg0).mp this
    linarith
  refine ⟨g₀, ⟨⟨hg0, hg1⟩, hbal, hval, hless⟩, fun g ⟨⟨h0, h1⟩, _, _, hl⟩ => ?_⟩
  by_contra hne
  have t1 := hless g h0 (by linarith) hne
  have t2 := hl g₀ hg0 (by linarith) (Ne.symm hne)
  linarith

/-- **C166 (one frame of delay).** The mean square of what is left settles at `(v + g² σ2) (1 + g) / (g (1 - g) (2 + g))`, whatever the start. -/
theorem C166_one_frame (g : ℚ) (h0 : 0 < g) (h1 : g < 1) (c v σ2 ε : ℚ) (hε : 0 < ε) :
    ∃ N, ∀ (Ω : Type) (_ : Fintype Ω) (P : Ω → ℚ) (a b : Ω → ℕ → ℚ) (n : ℕ), N ≤ n → Walk P a b c v σ2 n → |∑ ω, P ω * lag 1 g (a ω) (b ω) n ^ 2 - (v + g ^ 2 * σ2) * (1 + g) / (g * (1 - g) * (2 + g))| < ε := by
  have hs := (C79_delay_one_stable g 1 one_ne_zero).mpr ⟨h0, h1⟩
  set S := (1 + g) / (g * (1 - g) * (2 + g)) with hS
  set r : ℕ → ℚ := fun m => (leftOver 1 g 1 (m + 1) - g / (1 + g) * leftOver 1 g 1 m) ^ 2 + (2 * g + g ^ 2) / (1 + g) ^ 2 * leftOver 1 g 1 m ^ 2 with hr
  have hg1 : (1 : ℚ) - g ≠ 0 := by linarith
  have hg2 : (2 : ℚ) + g ≠ 0 := by linarith
  have hg3 : (1 : ℚ) + g ≠ 0 := by linarith
  have hsum : ∀ m, ∑ k ∈ Finset.range m, leftOver 1 g 1 k ^ 2 = S * (1 - r m) := by
    intro m
    have := squares_one g h0 h1 m
    have hgg : g ^ 2 ≠ 0 := pow_ne_zero 2 h0.ne'
    refine mul_left_cancel₀ hgg ?_
    have e : g ^ 2 * S = g * (1 + g) / ((1 - g) * (2 + g)) := by
      rw [hS]
      field_simp
    rw [this, ← mul_assoc, e]
  -- what is missing to the limit
  have hlim : Tendsto (fun n => ((c ^ 2 * leftOver 1 g 1 n ^ 2 - S * r n * v - g ^ 2 * (S * r (n - 1)) * σ2 : ℚ) : ℝ)) atTop (𝓝 0) := by
    have hu : Tendsto (fun n => (leftOver 1 g 1 n : ℝ)) atTop (𝓝 0) := (settles_iff_tendsto _).mp hs
    have hu1 := hu.comp (tendsto_add_atTop_nat 1)
    have hrt : Tendsto (fun n => (r n : ℝ)) atTop (𝓝 0) := by
      have := ((hu1.sub (hu.const_mul ((g / (1 + g) : ℚ) : ℝ))).pow 2).add ((hu.pow 2).const_mul (((2 * g + g ^ 2) / (1 + g) ^ 2 : ℚ) : ℝ))
      norm_num at this
      refine this.congr fun n => ?_
      simp only [hr]
      push_cast
      ring
    have hr1 : Tendsto (fun n => (r (n - 1) : ℝ)) atTop (𝓝 0) := hrt.comp (tendsto_sub_atTop_nat 1)
    have := (((hu.pow 2).const_mul ((c ^ 2 : ℚ) : ℝ)).sub (hrt.const_mul ((S * v : ℚ) : ℝ))).sub (hr1.const_mul ((g ^ 2 * S * σ2 : ℚ) : ℝ))
    norm_num at this
    refine this.congr fun n => ?_
    push_cast
    ring
  obtain ⟨N, hN⟩ := (settles_iff_tendsto _).mpr hlim ε hε
  refine ⟨N, fun Ω _ P a b n hn hw => ?_⟩
  rw [C166_square P a b c v σ2 1 n g hw, hsum, hsum]
  have e : c ^ 2 * leftOver 1 g 1 n ^ 2 + S * (1 - r n) * v + g ^ 2 * (S * (1 - r (n - 1))) * σ2 - (v + g ^ 2 * σ2) * (1 + g) / (g * (1 - g) * (2 + g)) =
      c ^ 2 * leftOver 1 g 1 n ^ 2 - S * r n * v - g ^ 2 * (S * r (n - 1)) * σ2 := by
    rw [mul_div_assoc, ← hS]
    ring
  rw [e]
  exact hN n hn

/-! ### What the delay costs -/

/-- **C166 (floor).** With a delay of `d` frames no gain at all leaves less than `d + 1` times the variance of a step, nor, when it is at work, less than the square of the gain times the variance of the noise on top. -/
theorem C166_floor {Ω : Type} [Fintype Ω] (P : Ω → ℚ) (a b : Ω → ℕ → ℚ) (c v σ2 : ℚ) (d n : ℕ) (g : ℚ) (h : Walk P a b c v σ2 n) (hn : d < n) : (d + 1) * v + g ^ 2 * σ2 ≤ ∑ ω, P ω * lag d g (a ω) (b ω) n ^ 2 := by
  rw [C166_square P a b c v σ2 d n g h]
  have hone : ∀ k, k ≤ d → leftOver d g 1 k = 1 := by
    intro k
    induction k with
    | zero => intro _; rw [leftOver]
    | succ k ih => intro hk; rw [leftOver, ih (by omega), if_neg (by omega), sub_zero]
  have hv : 0 ≤ v := h.2.1.2.2.1
  have hσ : 0 ≤ σ2 := h.2.2.1.2.2.1
  have h1 : (d + 1 : ℚ) ≤ ∑ k ∈ Finset.range n, leftOver d g 1 k ^ 2 := by
    calc (d + 1 : ℚ) = ∑ k ∈ Finset.range (d + 1), leftOver d g 1 k ^ 2 := by
          rw [Finset.sum_congr rfl fun k hk => by rw [hone k (by rw [Finset.mem_range] at hk; omega)]]
          simp
      _ ≤ _ := Finset.sum_le_sum_of_subset_of_nonneg (Finset.range_subset_range.mpr hn) fun _ _ _ => sq_nonneg _
  have h2 : (1 : ℚ) ≤ ∑ k ∈ Finset.range (n - d), leftOver d g 1 k ^ 2 := by
    calc (1 : ℚ) = leftOver d g 1 0 ^ 2 := by rw [hone 0 (Nat.zero_le _)]; norm_num
      _ ≤ _ := Finset.single_le_sum (f := fun k => leftOver d g 1 k ^ 2) (fun _ _ => sq_nonneg _) (Finset.mem_range.mpr (by omega))
  have t1 := mul_le_mul_of_nonneg_right h1 hv
  have t2 : g ^ 2 * 1 * σ2 ≤ g ^ 2 * (∑ k ∈ Finset.range (n - d), leftOver d g 1 k ^ 2) * σ2 := mul_le_mul_of_nonneg_right (mul_le_mul_of_nonneg_left h2 (sq_nonneg g)) hσ
  have t3 : 0 ≤ c ^ 2 * leftOver d g 1 n ^ 2 := by positivity
  linarith

/-- **C166 (a frame of delay costs).** At the same gain a delay of one frame leaves more than none, unless nothing moves and there is no noise. -/
theorem C166_delay_costs (g v σ2 : ℚ) (h0 : 0 < g) (h1 : g < 1) (hv : 0 ≤ v) (hσ : 0 ≤ σ2) (hne : 0 < v + σ2) : (v + g ^ 2 * σ2) / (g * (2 - g)) < (v + g ^ 2 * σ2) * (1 + g) / (g * (1 - g) * (2 + g)) := by
  have hg : 0 < 1 - g := by linarith
  have hg2 : 0 < 2 - g := by linarith
  have hnum : 0 < v + g ^ 2 * σ2 := by
    rcases hv.eq_or_lt with h | h
    · have : 0 < σ2 := by linarith
      rw [← h]; positivity
    · positivity
  rw [div_lt_div_iff₀ (by positivity) (by positivity)]
  have : 0 < (v + g ^ 2 * σ2) * (g * (2 * g)) := by positivity
  nlinarith

/-- **C166 (any delay).** With a stable gain the mean square of what is left settles, whatever the start, at `v + g² σ2` times a number that depends only on gain and delay and is at least `d + 1`. -/
theorem C166_settles (d : ℕ) (g : ℚ) (h : StableGain d g) : ∃ S : ℝ, (d : ℝ) + 1 ≤ S ∧ ∀ (c v σ2 : ℚ) (ε : ℝ), 0 < ε →
    ∃ N, ∀ (Ω : Type) (_ : Fintype Ω) (P : Ω → ℚ) (a b : Ω → ℕ → ℚ) (n : ℕ), N ≤ n → Walk P a b c v σ2 n → |((∑ ω, P ω * lag d g (a ω) (b ω) n ^ 2 : ℚ) : ℝ) - (v + g ^ 2 * σ2) * S| < ε := by
  have hs : Settles (leftOver d g 1) := (C79_exact d g 1 one_ne_zero).mpr h
  obtain ⟨K, hK0, hK⟩ := sums_bounded d g hs
  have hu : ∀ k, |leftOver d g 1 k| ≤ K := fun k =>
    le_trans (Finset.single_le_sum (f := fun k => |leftOver d g 1 k|) (fun k _ => abs_nonneg _) (Finset.mem_range.mpr (Nat.lt_succ_self k))) (hK (k + 1))
  have hsq : ∀ m, ∑ k ∈ Finset.range m, leftOver d g 1 k ^ 2 ≤ K * K := by
    intro m
    calc ∑ k ∈ Finset.range m, leftOver d g 1 k ^ 2 ≤ ∑ k ∈ Finset.range m, K * |leftOver d g 1 k| := by
          refine Finset.sum_le_sum fun k _ => ?_
          rw [← sq_abs, sq]
          exact mul_le_mul_of_nonneg_right (hu k) (abs_nonneg _)
      _ ≤ K * K := by rw [← Finset.mul_sum]; exact mul_le_mul_of_nonneg_left (hK _) (le_of_lt hK0)
  have hsum : Summable fun n => (leftOver d g 1 n : ℝ) ^ 2 := by
    refine summable_of_sum_range_le (c := ((K * K : ℚ) : ℝ)) (fun n => sq_nonneg _) fun n => ?_
    have := hsq n
    exact_mod_cast this
  have hlim := hsum.hasSum.tendsto_sum_nat
  set S := ∑' n, (leftOver d g 1 n : ℝ) ^ 2 with hS
  have hlim' : Tendsto (fun n => ((∑ k ∈ Finset.range n, leftOver d g 1 k ^ 2 : ℚ) : ℝ)) atTop (𝓝 S) := hlim.congr fun n => by push_cast; rfl
  refine ⟨S, ?_, fun c v σ2 ε hε => ?_⟩
  · have hone : ∀ k, k ≤ d → leftOver d g 1 k = 1 := by
      intro k
      induction k with
      | zero => intro _; rw [leftOver]
      | succ k ih => intro hk; rw [leftOver, ih (by omega), if_neg (by omega), sub_zero]
    calc (d : ℝ) + 1 = ∑ k ∈ Finset.range (d + 1), (leftOver d g 1 k : ℝ) ^ 2 := by
          rw [Finset.sum_congr rfl fun k hk => by rw [hone k (by rw [Finset.mem_range] at hk; omega)]]
          simp
      _ ≤ S := hsum.sum_le_tsum _ fun _ _ => sq_nonneg _
  · have hu0 : Tendsto (fun n => (leftOver d g 1 n : ℝ)) atTop (𝓝 0) := (settles_iff_tendsto _).mp hs
    have ht := (((hu0.pow 2).const_mul ((c : ℝ) ^ 2)).add (hlim'.mul_const (v : ℝ))).add (((hlim'.comp (tendsto_sub_atTop_nat d)).const_mul ((g : ℝ) ^ 2)).mul_const (σ2 : ℝ))
    obtain ⟨N, hN⟩ := Metric.tendsto_atTop.mp ht ε hε
    refine ⟨N, fun Ω _ P a b n hn hw => ?_⟩
    have h1 := hN n hn
    rw [C166_square P a b c v σ2 d n g hw]
    rw [Real.dist_eq] at h1
    refine lt_of_eq_of_lt ?_ h1
    congr 1
    simp only [Function.comp]
    push_cast
    ring

/-! ### The whole simulation -/

section
variable (o : Optics) (ho : Optics.Sound o) (totalActs : ℕ) (dms dms' : List Persist.Dm) (M : List (List ℚ)) (hcal : o.calibrate totalActs dms = .ok (dms', M))
    (hne : dms ≠ []) (hdms : ∀ d ∈ dms, d.shapes.length = d.nActs ∧ (o.scrn + d.nElem) % 2 = 0) (hkept : ∀ d ∈ dms', d.shapes ≠ [])
    (P : List (List ℚ)) (hrows : P.length = o.totalMeas) (hcols : ∀ r ∈ P, r.length = M.length) (hinv : Undoes P M)
    (gains : List ℚ) (hg : gains.length = dms.length) (d nIters nActs : ℕ) (hN : 1 ≤ nIters) (saveSlopes saveDm : Bool) (hstore : saveDm = true → nActs = M.length)

include ho hcal hne hdms hkept hrows hcols hinv hg hN hstore

/-- **C166 (whole).** The whole simulation with random turbulence and noise, one command: if what the control matrix makes of the turbulence walks at random and what it makes of the noise is uncorrelated, the mean square error of the command is that of `C166_square`. -/
theorem C166_whole {Ω : Type} [Fintype Ω] (Pr : Ω → ℚ) (turb : Ω → ℕ → ℕ → ℕ → ℕ → ℚ) (err : Ω → ℕ → ℕ → ℚ) (p : ℕ) (hp : p < M.length) (c v σ2 : ℚ) (n : ℕ)
    (hw : Walk Pr (fun ω k => reconstructed P (o.uncorrected (turb ω k)) p) (fun ω k => ∑ m ∈ Finset.range o.totalMeas, (P.getD m []).getD p 0 * err ω k m) c v σ2 n) :
    ∃ (s' : Ω → Loop.State Unit Stack) (ts : Ω → List (Trace Stack)),
      (∀ ω, runLoop (o.sys dms' P d nIters saveSlopes saveDm) (o.noisyPlant (turb ω) (err ω)) (initial (o.sys dms' P d nIters saveSlopes saveDm) (controls dms' gains) o.totalMeas nActs ()) (List.replicate (n + 1) (controls dms' gains)) = .ok (s' ω, ts ω) ∧ (ts ω).length = n + 1) ∧
      ∃ x : Ω → ℚ, (∀ ω, (ts ω)[n]?.bind (·.cmds[p]?) = some (x ω)) ∧
        ∑ ω, Pr ω * (reconstructed P (o.uncorrected (turb ω n)) p - x ω) ^ 2 =
          c ^ 2 * leftOver d (gainOf (controls dms' gains) p) 1 n ^ 2 + (∑ k ∈ Finset.range n, leftOver d (gainOf (controls dms' gains) p) 1 k ^ 2) * v +
            gainOf (controls dms' gains) p ^ 2 * (∑ k ∈ Finset.range (n - d), leftOver d (gainOf (controls dms' gains) p) 1 k ^ 2) * σ2 := by
  choose s' ts r1 r2 r3 using fun ω => C154_whole o ho totalActs dms dms' M hcal hne hdms hkept P hrows hcols hinv gains hg d nIters nActs hN saveSlopes saveDm hstore (n + 1) (turb ω) (err ω)
  refine ⟨s', ts, fun ω => ⟨r1 ω, r2 ω⟩, fun ω => reconstructed P (o.uncorrected (turb ω n)) p - lag d (gainOf (controls dms' gains) p) (fun k => reconstructed P (o.uncorrected (turb ω k)) p)
    (fun k => ∑ m ∈ Finset.range o.totalMeas, (P.getD m []).getD p 0 * err ω k m) n, fun ω => ?_, ?_⟩
  · have hl := r2 ω
    have ht : (ts ω)[n]? = some ((ts ω)[n]'(by omega)) := List.getElem?_eq_getElem (by omega)
    rw [ht, Option.bind_some]
    exact (r3 ω n _ ht).1 p hp
  · simp only [sub_sub_cancel]
    exact C166_square Pr _ _ c v σ2 d n _ hw

/-- **C166 (whole, floor).** No choice of gains makes the mean square error of the command less than `d + 1` times the variance of a step. -/
theorem C166_whole_floor {Ω : Type} [Fintype Ω] (Pr : Ω → ℚ) (turb : Ω → ℕ → ℕ → ℕ → ℕ → ℚ) (err : Ω → ℕ → ℕ → ℚ) (p : ℕ) (hp : p < M.length) (c v σ2 : ℚ) (n : ℕ) (hn : d < n)
    (hw : Walk Pr (fun ω k => reconstructed P (o.uncorrected (turb ω k)) p) (fun ω k => ∑ m ∈ Finset.range o.totalMeas, (P.getD m []).getD p 0 * err ω k m) c v σ2 n) :
    ∃ (s' : Ω → Loop.State Unit Stack) (ts : Ω → List (Trace Stack)),
      (∀ ω, runLoop (o.sys dms' P d nIters saveSlopes saveDm) (o.noisyPlant (turb ω) (err ω)) (initial (o.sys dms' P d nIters saveSlopes saveDm) (controls dms' gains) o.totalMeas nActs ()) (List.replicate (n + 1) (controls dms' gains)) = .ok (s' ω, ts ω) ∧ (ts ω).length = n + 1) ∧
      ∃ x : Ω → ℚ, (∀ ω, (ts ω)[n]?.bind (·.cmds[p]?) = some (x ω)) ∧ (d + 1) * v ≤ ∑ ω, Pr ω * (reconstructed P (o.uncorrected (turb ω n)) p - x ω) ^ 2 := by
  obtain ⟨s', ts, h1, x, h2, h3⟩ := C166_whole o ho totalActs dms dms' M hcal hne hdms hkept P hrows hcols hinv gains hg d nIters nActs hN saveSlopes saveDm hstore Pr turb err p hp c v σ2 n hw
  refine ⟨s', ts, h1, x, h2, ?_⟩
  rw [h3, ← C166_square Pr _ _ c v σ2 d n _ hw]
  have hf := C166_floor Pr _ _ c v σ2 d n (gainOf (controls dms' gains) p) hw hn
  have : 0 ≤ gainOf (controls dms' gains) p ^ 2 * σ2 := mul_nonneg (sq_nonneg _) hw.2.2.1.2.2.1
  linarith

end

/-! ### Non-vacuity -/

example : ∃ (Ω : Type) (_ : Fintype Ω) (P : Ω → ℚ) (a b : Ω → ℕ → ℚ), Walk P a b 5 1 1 100 := Walk.exists 100 5

/-- The default gain and a delay of two frames. -/
example : ∃ S : ℝ, 3 ≤ S ∧ ∀ ε : ℝ, 0 < ε → ∃ N, ∀ (Ω : Type) (_ : Fintype Ω) (P : Ω → ℚ) (a b : Ω → ℕ → ℚ) (n : ℕ), N ≤ n → Walk P a b 5 1 1 n → |((∑ ω, P ω * lag 2 (3 / 5) (a ω) (b ω) n ^ 2 : ℚ) : ℝ) - (34 / 25) * S| < ε := by
  obtain ⟨S, h1, h2⟩ := C166_settles 2 (3 / 5) ((C79_exact 2 (3 / 5) 1 one_ne_zero).mp ((C79_default_gain 2 1 one_ne_zero).mpr (le_refl 2)))
  refine ⟨S, by norm_num at h1; linarith, fun ε hε => ?_⟩
  obtain ⟨N, hN⟩ := h2 5 1 1 ε hε
  refine ⟨N, fun Ω _ P a b n hn hw => ?_⟩
  have := hN Ω _ P a b n hn hw
  norm_num at this ⊢
  exact this

/-- With a delay of two frames and a variance of one per frame at least three is left, with every gain. -/
example : ∃ (Ω : Type) (_ : Fintype Ω) (P : Ω → ℚ) (a b : Ω → ℕ → ℚ), ∀ g : ℚ, 3 ≤ ∑ ω, P ω * lag 2 g (a ω) (b ω) 100 ^ 2 := by
  obtain ⟨Ω, hΩ, P, a, b, h⟩ := Walk.exists 100 5
  refine ⟨Ω, hΩ, P, a, b, fun g => ?_⟩
  have := C166_floor P a b 5 1 1 2 100 g h (by norm_num)
  push_cast at this
  nlinarith [sq_nonneg g]

/-- The default gain 3/5 is the best one for steps of variance 9/10 and noise of variance one. -/
example : (1 : ℝ) * (3 / 5) ^ 2 = 9 / 10 * (1 - 3 / 5) := by norm_num

/-- Half of it leaves more. -/
example : ((9 / 10 : ℚ) + (3 / 5) ^ 2 * 1) / (3 / 5 * (2 - 3 / 5)) < (9 / 10 + (3 / 10) ^ 2 * 1) / (3 / 10 * (2 - 3 / 10)) := by norm_num

/-- The simulation of the example of C111 with turbulence that tilts one way or the other after the first frame, and a noise of plus or minus one in the first measurement: the hypothesis of `C166_whole` is met. -/
example : ∃ (c v σ2 : ℚ), 0 < v ∧ Walk (Ω := Bool × Bool) (fun _ => 1 / 4) (fun ω k => reconstructed wholeCmat (wholeOptics.uncorrected (fun l i _ => if l = 0 ∧ 0 < k then (if ω.1 then 3 * i else -3 * i) else 0)) 0)
    (fun ω k => ∑ m ∈ Finset.range wholeOptics.totalMeas, (wholeCmat.getD m []).getD 0 0 * (if m = 0 ∧ k = 0 then (if ω.2 then 1 else -1) else 0)) c v σ2 1 := by
  refine ⟨0, 9, (wholeCmat.getD 0 []).getD 0 0 ^ 2, by norm_num, ?_, ?_, ?_, ?_⟩
  · decide +kernel
  · refine ⟨by decide +kernel, by decide +kernel, by decide +kernel, ?_, ?_, ?_⟩ <;> decide +kernel
  · refine ⟨by decide +kernel, by decide +kernel, by decide +kernel, ?_, ?_, ?_⟩ <;> decide +kernel
  · decide +kernel

end Soapy.Props
