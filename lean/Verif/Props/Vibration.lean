/-
Property theorems C165: what the loop makes of vibrations.
-/
import Verif.Props.WholeExact

namespace Soapy.Props

open Filter Topology Soapy.Mirror Soapy.Los Soapy.Whole Soapy.Loop Soapy.Control

/-! ### Periodic aberrations -/

theorem lag_later (d : ℕ) (g : ℚ) (a b : ℕ → ℚ) (n : ℕ) : lag d g a b (n + d + 1) = lag d g a b (n + d) + (a (n + d + 1) - a (n + d)) - g * (lag d g a b n + b n) := by
  rw [lag, if_pos (by omega), Nat.add_sub_cancel]

/-- Whatever starts a stable loop is forgotten. -/
theorem forgotten (d : ℕ) (g : ℚ) (h : StableGain d g) (f : ℕ → ℝ) (hf : ∀ n, f (n + d + 1) = f (n + d) - g * f n) : Tendsto f atTop (𝓝 0) := by
  refine Stable.tendsto_of_roots d g (fun z hz => ?_) f hf
  by_contra hcon
  have := Stable.root_gain d g (by exact_mod_cast h.1) z (not_lt.mp hcon) hz
  have h2 := h.2
  rw [Stable.limitGain] at this
  linarith

/-- **C165 (periodic).** An aberration and errors of measurement that repeat themselves every `P` frames: what a stable loop leaves of them comes as close as one likes to repeating itself every `P` frames, and its mean over `P` frames to minus the mean of the errors. -/
theorem C165_periodic (d : ℕ) (g : ℚ) (h : StableGain d g) (P : ℕ) (a b : ℕ → ℚ) (ha : ∀ n, a (n + P) = a n) (hb : ∀ n, b (n + P) = b n) :
    Settles (fun n => lag d g a b (n + P) - lag d g a b n) ∧ Settles fun n => ∑ k ∈ Finset.range P, (lag d g a b (n + k) + b k) := by
  have hD : Settles fun n => lag d g a b (n + P) - lag d g a b n := by
    rw [settles_iff_tendsto]
    refine forgotten d g h _ fun n => ?_
    rw [show n + d + 1 + P = (n + P) + d + 1 by omega, show n + d + P = (n + P) + d by omega, lag_later, lag_later, hb n]
    have e1 : a (n + P + d + 1) = a (n + d + 1) := by rw [show n + P + d + 1 = n + d + 1 + P by omega, ha]
    have e2 : a (n + P + d) = a (n + d) := by rw [show n + P + d = n + d + P by omega, ha]
    rw [e1, e2]
    push_cast
    ring
  refine ⟨hD, ?_⟩
  -- the errors of any `P` successive frames
  have hsum : ∀ n, ∑ k ∈ Finset.range P, b (n + k) = ∑ k ∈ Finset.range P, b k := by
    intro n
    induction n with
    | zero => simp
    | succ n ih =>
      rw [← ih]
      have s1 := Finset.sum_range_succ (fun k => b (n + k)) P
      have s2 := Finset.sum_range_succ' (fun k => b (n + k)) P
      rw [s1] at s2
      simp only [hb, add_zero] at s2
      rw [Finset.sum_congr rfl fun k _ => by rw [show n + 1 + k = n + (k + 1) by omega]]
      linarith
  have tele : ∀ (f : ℕ → ℚ) (n m : ℕ), ∑ k ∈ Finset.range m, (f (n + k + 1) - f (n + k)) = f (n + m) - f n := by
    intro f n m
    induction m with
    | zero => simp
    | succ m ih => rw [Finset.sum_range_succ, ih]; rw [show n + (m + 1) = n + m + 1 by omega]; ring
  have key : ∀ n, g * ∑ k ∈ Finset.range P, (lag d g a b (n + k) + b k) = -(lag d g a b (n + d + P) - lag d g a b (n + d)) := by
    intro n
    have e : ∑ k ∈ Finset.range P, (lag d g a b (n + k) + b k) = ∑ k ∈ Finset.range P, (lag d g a b (n + k) + b (n + k)) := by
      rw [Finset.sum_add_distrib, Finset.sum_add_distrib, hsum]
    rw [e, Finset.mul_sum]
    have e2 : ∀ k ∈ Finset.range P, g * (lag d g a b (n + k) + b (n + k)) = (a (n + d + k + 1) - a (n + d + k)) - (lag d g a b (n + d + k + 1) - lag d g a b (n + d + k)) := by
      intro k _
      have := lag_later d g a b (n + k)
      rw [show n + k + d + 1 = n + d + k + 1 by omega, show n + k + d = n + d + k by omega] at this
      linarith
    rw [Finset.sum_congr rfl e2, Finset.sum_sub_distrib, tele, tele, ha]
    ring
  intro ε hε
  obtain ⟨N, hN⟩ := hD (g * ε) (mul_pos h.1 hε)
  refine ⟨N, fun n hn => ?_⟩
  have h1 := hN (n + d) (by omega)
  dsimp only at h1 ⊢
  rw [← abs_neg, ← key, abs_mul, abs_of_pos h.1] at h1
  exact lt_of_mul_lt_mul_left h1 h.1.le

/-! ### Sinusoidal aberrations -/

/-- What is left of a vibration of frequency `ω` (radians per frame), as a complex factor: amplitude and phase. -/
noncomputable def rejection (d : ℕ) (g ω : ℝ) : ℂ :=
  Complex.exp (ω * Complex.I) ^ d * (Complex.exp (ω * Complex.I) - 1) / (Complex.exp (ω * Complex.I) ^ d * (Complex.exp (ω * Complex.I) - 1) + g)

theorem rejection_denominator (d : ℕ) (g : ℚ) (h : StableGain d g) (z : ℂ) (hz : ‖z‖ = 1) : z ^ d * (z - 1) + ((g : ℝ) : ℂ) ≠ 0 := by
  intro hcon
  have := Stable.root_gain d g (by exact_mod_cast h.1) z hz.ge (eq_neg_of_add_eq_zero_left hcon)
  have h2 := h.2
  rw [Stable.limitGain] at this
  linarith

private theorem conv_real (h : ℕ → ℝ) (d : ℕ) (g : ℝ) (hstep : ∀ n, h (n + 1) = h n - if d ≤ n then g * h (n - d) else 0) (f : ℕ → ℝ) (m : ℕ) :
    ∑ k ∈ Finset.range (m + 1), h (m - k) * f k = h 0 * f m + ∑ k ∈ Finset.range m, h (m - 1 - k) * f k - g * ∑ k ∈ Finset.range (m - d), h (m - d - 1 - k) * f k := by
  rw [Finset.sum_range_succ, Nat.sub_self]
  have e1 : ∑ k ∈ Finset.range m, h (m - k) * f k = ∑ k ∈ Finset.range m, h (m - 1 - k) * f k - ∑ k ∈ Finset.range m, if k < m - d then g * (h (m - d - 1 - k) * f k) else 0 := by
    rw [← Finset.sum_sub_distrib]
    refine Finset.sum_congr rfl fun k hk => ?_
    rw [Finset.mem_range] at hk
    rw [show m - k = (m - 1 - k) + 1 by omega, hstep]
    by_cases hd : k < m - d
    · rw [if_pos hd, if_pos (by omega), show m - 1 - k - d = m - d - 1 - k by omega]; ring
    · rw [if_neg hd, if_neg (by omega)]; ring
  have e2 : (∑ k ∈ Finset.range m, if k < m - d then g * (h (m - d - 1 - k) * f k) else 0) = g * ∑ k ∈ Finset.range (m - d), h (m - d - 1 - k) * f k := by
    rw [Finset.mul_sum, ← Finset.sum_filter]
    congr 1
    ext k
    simp only [Finset.mem_filter, Finset.mem_range]
    omega
  rw [e1, e2]
  ring

/-- **C165 (vibration).** An aberration that is, up to `η`, a vibration of any frequency, amplitude and phase: after the start what a stable loop leaves of it is, up to a multiple of `η`, a vibration of the same frequency, its amplitude and phase changed by `rejection`. -/
theorem C165_vibration (d : ℕ) (g : ℚ) (h : StableGain d g) : ∃ C : ℝ, 0 < C ∧ ∀ (ω A φ η : ℝ) (a : ℕ → ℚ), (∀ n, |(a n : ℝ) - A * Real.cos (ω * n + φ)| ≤ η) → ∀ ε : ℝ, 0 < ε → ∃ N, ∀ n, N ≤ n →
    |(lag d g a (fun _ => 0) n : ℝ) - (rejection d g ω * (A * Complex.exp ((ω * n + φ) * Complex.I))).re| < C * η + ε := by
  obtain ⟨K, hK0, hK⟩ := sums_bounded d g ((C79_exact d g 1 one_ne_zero).mpr h)
  refine ⟨2 * K, by positivity, ?_⟩
  intro ω A φ η a hη ε hε
  have hη0 : 0 ≤ η := (abs_nonneg _).trans (hη 0)
  set z : ℂ := Complex.exp (ω * Complex.I) with hz
  have hz1 : ‖z‖ = 1 := by rw [hz]; exact Complex.norm_exp_ofReal_mul_I ω
  have hden := rejection_denominator d g h z hz1
  set c : ℂ := A * Complex.exp (φ * Complex.I) with hc
  have hexp : ∀ n : ℕ, (A : ℂ) * Complex.exp ((ω * n + φ) * Complex.I) = c * z ^ n := by
    intro n
    rw [hc, hz, ← Complex.exp_nat_mul, mul_assoc, ← Complex.exp_add]
    congr 2
    ring
  have hcos : ∀ n : ℕ, (c * z ^ n).re = A * Real.cos (ω * n + φ) := by
    intro n
    rw [← hexp, Complex.re_ofReal_mul]
    congr 1
    have : ((ω : ℂ) * n + φ) * Complex.I = ((ω * n + φ : ℝ) : ℂ) * Complex.I := by push_cast; ring
    rw [this, Complex.exp_ofReal_mul_I_re]
  set H : ℂ := rejection d g ω with hH
  have hHeq : H * (z ^ d * (z - 1) + ((g : ℝ) : ℂ)) = z ^ d * (z - 1) := by
    rw [hH, rejection, ← hz]
    exact div_mul_cancel₀ _ hden
  set S : ℕ → ℝ := fun n => (H * (c * z ^ n)).re with hS
  have hSrec : ∀ n, S (n + d + 1) = S (n + d) + ((c * z ^ (n + d + 1)).re - (c * z ^ (n + d)).re) - g * S n := by
    intro n
    have e : H * (c * z ^ (n + d + 1)) = H * (c * z ^ (n + d)) + (c * z ^ (n + d + 1) - c * z ^ (n + d)) - ((g : ℝ) : ℂ) * (H * (c * z ^ n)) := by
      have : H * (c * z ^ (n + d + 1)) - H * (c * z ^ (n + d)) + ((g : ℝ) : ℂ) * (H * (c * z ^ n)) = c * z ^ n * (H * (z ^ d * (z - 1) + ((g : ℝ) : ℂ))) := by ring
      rw [hHeq] at this
      have e3 : c * z ^ n * (z ^ d * (z - 1)) = c * z ^ (n + d + 1) - c * z ^ (n + d) := by ring
      rw [e3] at this
      linear_combination this
    simp only [hS]
    rw [e, Complex.sub_re, Complex.add_re, Complex.sub_re, Complex.re_ofReal_mul]
  -- the part that is not a vibration
  set e : ℕ → ℝ := fun n => (a n : ℝ) - A * Real.cos (ω * n + φ) with he
  set u : ℕ → ℝ := fun n => (leftOver d g 1 n : ℝ) with hu
  have hu0 : u 0 = 1 := by simp only [hu]; rw [leftOver]; norm_num
  have hustep : ∀ n, u (n + 1) = u n - if d ≤ n then (g : ℝ) * u (n - d) else 0 := by
    intro n
    simp only [hu]
    rw [leftOver]
    split_ifs <;> push_cast <;> ring
  set w : ℕ → ℝ := fun n => ∑ k ∈ Finset.range n, u (n - 1 - k) * (e (k + 1) - e k) with hw
  have hwrec : ∀ n, w (n + d + 1) = w (n + d) + (e (n + d + 1) - e (n + d)) - g * w n := by
    intro n
    have := conv_real u d g hustep (fun k => e (k + 1) - e k) (n + d)
    rw [hu0, one_mul, Nat.add_sub_cancel] at this
    simp only [hw]
    rw [show n + d + 1 - 1 = n + d by omega, this]
    ring
  have hwle : ∀ n, |w n| ≤ K * (2 * η) := by
    intro n
    have hKn : ∑ k ∈ Finset.range n, |u k| ≤ K := by
      have := hK n
      simp only [hu]
      exact_mod_cast this
    calc |w n| ≤ ∑ k ∈ Finset.range n, |u (n - 1 - k) * (e (k + 1) - e k)| := Finset.abs_sum_le_sum_abs _ _
      _ ≤ ∑ k ∈ Finset.range n, |u (n - 1 - k)| * (2 * η) := by
        refine Finset.sum_le_sum fun k _ => ?_
        rw [abs_mul]
        refine mul_le_mul_of_nonneg_left ?_ (abs_nonneg _)
        have h1 := hη (k + 1)
        have h2 := hη k
        calc |e (k + 1) - e k| ≤ |e (k + 1)| + |e k| := abs_sub _ _
          _ ≤ η + η := add_le_add h1 h2
          _ = 2 * η := by ring
      _ = (∑ k ∈ Finset.range n, |u k|) * (2 * η) := by
        rw [← Finset.sum_mul, Finset.sum_range_reflect (fun k => |u k|) n]
      _ ≤ K * (2 * η) := mul_le_mul_of_nonneg_right hKn (by positivity)
  -- the start is forgotten
  have hlim : Tendsto (fun n => (lag d g a (fun _ => 0) n : ℝ) - S n - w n) atTop (𝓝 0) := by
    refine forgotten d g h _ fun n => ?_
    rw [lag_later, hSrec, hwrec, hcos, hcos]
    simp only [he]
    push_cast
    ring
  obtain ⟨N, hN⟩ := (Metric.tendsto_atTop.mp hlim) ε hε
  refine ⟨N, fun n hn => ?_⟩
  have h1 := hN n hn
  rw [Real.dist_eq, sub_zero] at h1
  have h2 := hwle n
  have e2 : (rejection d g ω * (A * Complex.exp ((ω * n + φ) * Complex.I))).re = S n := by rw [hexp, ← hH]
  rw [e2]
  calc |(lag d g a (fun _ => 0) n : ℝ) - S n| = |((lag d g a (fun _ => 0) n : ℝ) - S n - w n) + w n| := by congr 1; ring
    _ ≤ |(lag d g a (fun _ => 0) n : ℝ) - S n - w n| + |w n| := abs_add_le _ _
    _ < 2 * K * η + ε := by linarith

/-- **C165 (how much).** The square of the factor by which a vibration is reduced. -/
theorem C165_factor (d : ℕ) (g ω : ℝ) : Complex.normSq (rejection d g ω) = 4 * Real.sin (ω / 2) ^ 2 / (4 * Real.sin (ω / 2) ^ 2 + g ^ 2 - 4 * g * Real.sin ((d + 1 / 2) * ω) * Real.sin (ω / 2)) := by
  set z : ℂ := Complex.exp (ω * Complex.I) with hz
  have hzd : z ^ d = ((Real.cos (d * ω) : ℝ) : ℂ) + ((Real.sin (d * ω) : ℝ) : ℂ) * Complex.I := by
    rw [hz, ← Complex.exp_nat_mul, show (d : ℂ) * (ω * Complex.I) = ((d * ω : ℝ) : ℂ) * Complex.I by push_cast; ring, Complex.exp_mul_I, Complex.ofReal_cos, Complex.ofReal_sin]
  have hzd1 : z ^ (d + 1) = ((Real.cos ((d + 1) * ω) : ℝ) : ℂ) + ((Real.sin ((d + 1) * ω) : ℝ) : ℂ) * Complex.I := by
    rw [hz, ← Complex.exp_nat_mul, show ((d + 1 : ℕ) : ℂ) * (ω * Complex.I) = (((d + 1) * ω : ℝ) : ℂ) * Complex.I by push_cast; ring, Complex.exp_mul_I, Complex.ofReal_cos, Complex.ofReal_sin]
  have hre : (z ^ d * (z - 1)).re = -2 * Real.sin ((d + 1 / 2) * ω) * Real.sin (ω / 2) := by
    rw [show z ^ d * (z - 1) = z ^ (d + 1) - z ^ d by ring, hzd, hzd1]
    simp only [Complex.sub_re, Complex.add_re, Complex.ofReal_re, Complex.mul_re, Complex.I_re, Complex.ofReal_im, Complex.I_im, mul_zero, zero_mul, sub_zero, add_zero]
    rw [Real.cos_sub_cos]
    congr 2
    · congr 2; ring
    · congr 1; ring
  have hn : Complex.normSq (z ^ d * (z - 1)) = 4 * Real.sin (ω / 2) ^ 2 := by
    rw [map_mul, map_pow, Complex.normSq_eq_norm_sq z, hz, Complex.norm_exp_ofReal_mul_I, one_pow, one_pow, one_mul, Complex.exp_mul_I, ← Complex.ofReal_cos, ← Complex.ofReal_sin, Complex.normSq_apply]
    simp only [Complex.sub_re, Complex.add_re, Complex.ofReal_re, Complex.mul_re, Complex.I_re, Complex.ofReal_im, Complex.I_im, Complex.sub_im, Complex.add_im, Complex.mul_im, Complex.one_re, Complex.one_im]
    have h1 := Real.sin_sq_add_cos_sq ω
    have h2 : Real.cos ω = 1 - 2 * Real.sin (ω / 2) ^ 2 := by
      have := Real.cos_two_mul' (ω / 2)
      rw [show 2 * (ω / 2) = ω by ring] at this
      have h3 := Real.sin_sq_add_cos_sq (ω / 2)
      linarith
    nlinarith
  rw [rejection, ← hz, Complex.normSq_div, Complex.normSq_add, hn, Complex.normSq_ofReal, Complex.conj_ofReal, Complex.re_mul_ofReal, hre]
  congr 1
  ring

/-- **C165 (which vibrations are reduced).** Exactly those for which `4 sin((d + 1/2) ω) sin(ω / 2)` is less than the gain. -/
theorem C165_reduced (d : ℕ) (g : ℚ) (h : StableGain d g) (ω : ℝ) (hω : Real.sin (ω / 2) ≠ 0) :
    ‖rejection d g ω‖ < 1 ↔ 4 * Real.sin ((d + 1 / 2) * ω) * Real.sin (ω / 2) < g := by
  have hg : (0 : ℝ) < g := by exact_mod_cast h.1
  have hf := C165_factor d g ω
  rw [Complex.normSq_eq_norm_sq] at hf
  have hs : 0 < 4 * Real.sin (ω / 2) ^ 2 := by positivity
  have hpos : 0 < 4 * Real.sin (ω / 2) ^ 2 + (g : ℝ) ^ 2 - 4 * g * Real.sin ((d + 1 / 2) * ω) * Real.sin (ω / 2) := by
    have h1 : 4 * (g : ℝ) * Real.sin ((d + 1 / 2) * ω) * Real.sin (ω / 2) ≤ 4 * g * |Real.sin (ω / 2)| := by
      have : Real.sin ((d + 1 / 2) * ω) * Real.sin (ω / 2) ≤ |Real.sin (ω / 2)| := by
        refine (le_abs_self _).trans ?_
        rw [abs_mul]
        exact mul_le_of_le_one_left (abs_nonneg _) (Real.abs_sin_le_one _)
      nlinarith
    have hge : 0 ≤ 4 * Real.sin (ω / 2) ^ 2 + (g : ℝ) ^ 2 - 4 * g * Real.sin ((d + 1 / 2) * ω) * Real.sin (ω / 2) := by
      have : (2 * |Real.sin (ω / 2)| - g) ^ 2 = 4 * Real.sin (ω / 2) ^ 2 + (g : ℝ) ^ 2 - 4 * g * |Real.sin (ω / 2)| := by
        rw [sub_sq, mul_pow, sq_abs]; ring
      nlinarith [sq_nonneg (2 * |Real.sin (ω / 2)| - (g : ℝ))]
    refine lt_of_le_of_ne hge fun h0 => ?_
    rw [← h0, div_zero] at hf
    have hz0 : rejection d g ω = 0 := by
      have : ‖rejection d g ω‖ = 0 := by simpa using hf
      exact norm_eq_zero.mp this
    have hden := rejection_denominator d g h (Complex.exp (ω * Complex.I)) (Complex.norm_exp_ofReal_mul_I ω)
    rw [rejection, div_eq_zero_iff] at hz0
    rcases hz0 with hz0 | hz0
    · rcases mul_eq_zero.mp hz0 with hz0 | hz0
      · exact pow_ne_zero d (Complex.exp_ne_zero _) hz0
      · have h5 := congrArg Complex.re hz0
        rw [Complex.sub_re, Complex.exp_ofReal_mul_I_re, Complex.one_re, Complex.zero_re] at h5
        have h2 : Real.cos ω = 1 - 2 * Real.sin (ω / 2) ^ 2 := by
          have := Real.cos_two_mul' (ω / 2)
          rw [show 2 * (ω / 2) = ω by ring] at this
          have h3 := Real.sin_sq_add_cos_sq (ω / 2)
          linarith
        rw [h2] at h5
        linarith
    · exact hden hz0
  rw [← sq_lt_one_iff₀ (norm_nonneg _), hf, div_lt_one hpos]
  constructor
  · intro h1
    have : 0 < (g : ℝ) * (g - 4 * Real.sin ((d + 1 / 2) * ω) * Real.sin (ω / 2)) := by nlinarith
    have := (mul_pos_iff_of_pos_left hg).mp this
    linarith
  · intro h1
    have : 0 < (g : ℝ) * (g - 4 * Real.sin ((d + 1 / 2) * ω) * Real.sin (ω / 2)) := mul_pos hg (by linarith)
    nlinarith

/-- **C165 (no loop reduces everything).** A vibration of `2 (2 d + 1)` frames is amplified by every stable loop, by the limit of stability over what the gain leaves of it: the closer the gain to the limit, the more. -/
theorem C165_amplified (d : ℕ) (g : ℚ) (h : StableGain d g) :
    ‖rejection d g (Real.pi / (2 * d + 1))‖ = 2 * Real.sin (Real.pi / (2 * (2 * d + 1))) / (2 * Real.sin (Real.pi / (2 * (2 * d + 1))) - g) ∧ 1 < ‖rejection d g (Real.pi / (2 * d + 1))‖ := by
  have hg : (0 : ℝ) < g := by exact_mod_cast h.1
  have hL := h.2
  set L := 2 * Real.sin (Real.pi / (2 * (2 * d + 1))) with hLdef
  have hf := C165_factor d g (Real.pi / (2 * d + 1))
  have hd : (2 * (d : ℝ) + 1) ≠ 0 := by positivity
  have e1 : ((d : ℝ) + 1 / 2) * (Real.pi / (2 * d + 1)) = Real.pi / 2 := by field_simp
  have e2 : Real.pi / (2 * d + 1) / 2 = Real.pi / (2 * (2 * d + 1)) := by rw [div_div, mul_comm]
  rw [e1, e2, Real.sin_pi_div_two, Complex.normSq_eq_norm_sq] at hf
  have hs : Real.sin (Real.pi / (2 * (2 * d + 1))) = L / 2 := by rw [hLdef]; ring
  rw [hs] at hf
  have hpos : 0 < L - g := by linarith
  have hsq : ‖rejection d g (Real.pi / (2 * d + 1))‖ ^ 2 = (L / (L - g)) ^ 2 := by
    have e3 : 4 * (L / 2) ^ 2 + (g : ℝ) ^ 2 - 4 * g * 1 * (L / 2) = (L - g) ^ 2 := by ring
    rw [hf, e3, div_pow (L) (L - g)]
    ring
  have hLpos : 0 < L := by linarith
  have hn : ‖rejection d g (Real.pi / (2 * d + 1))‖ = L / (L - g) := (sq_eq_sq₀ (norm_nonneg _) (div_pos hLpos hpos).le).mp hsq
  exact ⟨hn, by rw [hn, lt_div_iff₀ hpos]; linarith⟩

/-- **C165 (slow vibrations).** The slower a vibration the less is left of it: at most twice the frequency over the gain, for all frequencies up to a limit. -/
theorem C165_slow (d : ℕ) g (hg : 0 < g) (ω : ℝ) (hslow : (2 * d + 1) * ω ^ 2 ≤ g / 2) : ‖rejection d g ω‖ ≤ 2 * |ω| / g := by
  have hω : 4 * Real.sin ((d + 1 / 2) * ω) * Real.sin (ω / 2) ≤ g / 2 := by
    refine le_trans ?_ hslow
    have h1 : |Real.sin ((d + 1 / 2) * ω)| ≤ |(d + 1 / 2) * ω| := Real.abs_sin_le_abs
    have h2 : |Real.sin (ω / 2)| ≤ |ω / 2| := Real.abs_sin_le_abs
    have h3 : Real.sin ((d + 1 / 2) * ω) * Real.sin (ω / 2) ≤ |(d + 1 / 2) * ω| * |ω / 2| := by
      refine (le_abs_self _).trans ?_
      rw [abs_mul]
      exact mul_le_mul h1 h2 (abs_nonneg _) (abs_nonneg _)
    have h4 : |(d + 1 / 2) * ω| * |ω / 2| = (d + 1 / 2) / 2 * ω ^ 2 := by
      rw [abs_mul, abs_div, abs_of_pos (by positivity : (0 : ℝ) < d + 1 / 2), abs_of_pos (by norm_num : (0 : ℝ) < 2), ← sq_abs ω]
      ring
    rw [h4] at h3
    linarith
  have hf := C165_factor d g ω
  rw [Complex.normSq_eq_norm_sq] at hf
  have hs : |Real.sin (ω / 2)| ≤ |ω / 2| := Real.abs_sin_le_abs
  have hs2 : 4 * Real.sin (ω / 2) ^ 2 ≤ ω ^ 2 := by
    have : Real.sin (ω / 2) ^ 2 ≤ (ω / 2) ^ 2 := sq_le_sq.mpr hs
    nlinarith
  have hden : g ^ 2 / 2 ≤ 4 * Real.sin (ω / 2) ^ 2 + g ^ 2 - 4 * g * Real.sin ((d + 1 / 2) * ω) * Real.sin (ω / 2) := by
    have : g * (4 * Real.sin ((d + 1 / 2) * ω) * Real.sin (ω / 2)) ≤ g * (g / 2) := mul_le_mul_of_nonneg_left hω hg.le
    nlinarith [sq_nonneg (Real.sin (ω / 2))]
  have hle : ‖rejection d g ω‖ ^ 2 ≤ (2 * |ω| / g) ^ 2 := by
    rw [hf, div_pow, mul_pow, sq_abs]
    calc _ ≤ ω ^ 2 / (g ^ 2 / 2) := div_le_div₀ (sq_nonneg _) hs2 (by positivity) hden
      _ ≤ 2 ^ 2 * ω ^ 2 / g ^ 2 := by
        rw [div_div_eq_mul_div]
        refine div_le_div_of_nonneg_right ?_ (sq_nonneg _)
        nlinarith [sq_nonneg ω]
  exact (sq_le_sq₀ (norm_nonneg _) (by positivity)).mp hle

/-! ### Errors of measurement -/

/-- **C165 (errors of measurement).** What errors of measurement leave is what the loop would leave of an aberration of the same course, minus this course: a loop that rejects an aberration completely passes errors of the same frequency completely. For all gains and delays, in every frame. -/
theorem C165_errors (d : ℕ) (g : ℚ) (b : ℕ → ℚ) (n : ℕ) : lag d g (fun _ => 0) b n = lag d g b (fun _ => 0) n - b n := by
  induction n using Nat.strong_induction_on with
  | _ n ih =>
    cases n with
    | zero => simp [lag]
    | succ n =>
      rw [lag, lag, ih n (by omega)]
      by_cases h : d ≤ n
      · rw [if_pos h, if_pos h, ih (n - d) (by omega)]; ring
      · rw [if_neg h, if_neg h]; ring

/-- **C165 (vibration, measured).** An error of measurement that is, up to `η`, a vibration leaves, after the start and up to a multiple of `η`, a vibration of the same frequency; the factor is `rejection` minus one. -/
theorem C165_errors_vibration (d : ℕ) (g : ℚ) (h : StableGain d g) : ∃ C : ℝ, 0 < C ∧ ∀ (ω A φ η : ℝ) (b : ℕ → ℚ), (∀ n, |(b n : ℝ) - A * Real.cos (ω * n + φ)| ≤ η) → ∀ ε : ℝ, 0 < ε → ∃ N, ∀ n, N ≤ n →
    |(lag d g (fun _ => 0) b n : ℝ) - ((rejection d g ω - 1) * (A * Complex.exp ((ω * n + φ) * Complex.I))).re| < C * η + ε := by
  obtain ⟨C, hC0, hC⟩ := C165_vibration d g h
  refine ⟨C + 1, by linarith, fun ω A φ η b hη ε hε => ?_⟩
  obtain ⟨N, hN⟩ := hC ω A φ η b hη ε hε
  refine ⟨N, fun n hn => ?_⟩
  have h1 := hN n hn
  have h2 := hη n
  have e : ((1 : ℂ) * (A * Complex.exp ((ω * n + φ) * Complex.I))).re = A * Real.cos (ω * n + φ) := by
    rw [one_mul, Complex.re_ofReal_mul, show ((ω : ℂ) * n + φ) * Complex.I = ((ω * n + φ : ℝ) : ℂ) * Complex.I by push_cast; ring, Complex.exp_ofReal_mul_I_re]
  rw [C165_errors, sub_mul, Complex.sub_re, e]
  push_cast
  set u := (rejection d g ω * (A * Complex.exp ((ω * n + φ) * Complex.I))).re
  calc |(lag d g b (fun _ => 0) n : ℝ) - b n - (u - A * Real.cos (ω * n + φ))| = |((lag d g b (fun _ => 0) n : ℝ) - u) - ((b n : ℝ) - A * Real.cos (ω * n + φ))| := by congr 1; ring
    _ ≤ |(lag d g b (fun _ => 0) n : ℝ) - u| + |(b n : ℝ) - A * Real.cos (ω * n + φ)| := abs_sub _ _
    _ < (C + 1) * η + ε := by linarith

/-! ### Long exposures -/

/-- **C165 (sum).** The gain times the sum of what is measured in the first `n` frames is the correction `d` frames later, for all gains and delays. -/
theorem C165_sum (d : ℕ) (g : ℚ) (a b : ℕ → ℚ) (n : ℕ) : g * ∑ k ∈ Finset.range n, (lag d g a b k + b k) = a (n + d) - lag d g a b (n + d) := by
  induction n with
  | zero =>
    have : ∀ m, m ≤ d → lag d g a b m = a m := by
      intro m
      induction m with
      | zero => intro _; rw [lag]
      | succ m ih => intro hm; rw [lag, ih (by omega), if_neg (by omega)]; ring
    rw [Finset.range_zero, Finset.sum_empty, mul_zero, Nat.zero_add, this d le_rfl, sub_self]
  | succ n ih =>
    rw [Finset.sum_range_succ, mul_add, ih, show n + 1 + d = n + d + 1 by omega, lag_later]
    ring

/-- **C165 (long exposure).** What a stable loop leaves of any aberration that stays within bounds has no mean: over the first `n` frames it adds up to at most a constant, which depends only on the loop, times the bound — whatever the aberration and however large `n`. -/
theorem C165_mean (d : ℕ) (g : ℚ) (h : StableGain d g) : ∃ C : ℚ, 0 < C ∧ ∀ (B : ℚ) (a : ℕ → ℚ), (∀ n, |a n| ≤ B) → ∀ n, |∑ k ∈ Finset.range n, lag d g a (fun _ => 0) k| ≤ C * B := by
  obtain ⟨K, hK⟩ := (C110_exact d g).mpr h
  have hg := h.1
  refine ⟨(1 + 2 * |K|) / g, by positivity, fun B a ha n => ?_⟩
  have hB : 0 ≤ B := (abs_nonneg _).trans (ha 0)
  have hs := C165_sum d g a (fun _ => 0) n
  simp only [add_zero] at hs
  have hlag : |lag d g a (fun _ => 0) (n + d)| ≤ 2 * |K| * B := by
    rcases hB.eq_or_lt with hB0 | hB0
    · have ha0 : a = fun _ => 0 := by
        funext m
        have := ha m
        rw [← hB0] at this
        exact abs_eq_zero.mp (le_antisymm this (abs_nonneg _))
      have hz : ∀ m, lag d g (fun _ => 0) (fun _ => 0) m = 0 := by
        intro m
        induction m using Nat.strong_induction_on with
        | _ m ih =>
          cases m with
          | zero => rw [lag]
          | succ m => rw [lag, ih m (by omega), ih (m - d) (by omega)]; simp
      rw [ha0, hz, abs_zero, ← hB0, mul_zero]
    · have h1 := StaysBelow.scaled hK (2 * B) (by linarith) a (fun _ => 0) ((ha 0).trans (by linarith)) (fun m => (abs_sub _ _).trans (by linarith [ha (m + 1), ha m])) (fun _ => by simpa using hB) (n + d)
      refine h1.trans ?_
      nlinarith [le_abs_self K]
  have h2 : g * |∑ k ∈ Finset.range n, lag d g a (fun _ => 0) k| ≤ (1 + 2 * |K|) * B := by
    rw [← abs_of_pos hg, ← abs_mul, abs_of_pos hg, hs]
    refine (abs_sub _ _).trans ?_
    linarith [ha (n + d)]
  rw [div_mul_eq_mul_div, le_div_iff₀ hg]
  linarith

/-! ### The whole simulation -/

section
variable (o : Optics) (ho : Optics.Sound o) (totalActs : ℕ) (dms dms' : List Persist.Dm) (M : List (List ℚ)) (hcal : o.calibrate totalActs dms = .ok (dms', M))
    (hne : dms ≠ []) (hdms : ∀ d ∈ dms, d.shapes.length = d.nActs ∧ (o.scrn + d.nElem) % 2 = 0) (hkept : ∀ d ∈ dms', d.shapes ≠ [])
    (P : List (List ℚ)) (hrows : P.length = o.totalMeas) (hcols : ∀ r ∈ P, r.length = M.length) (hinv : Undoes P M)
    (gains : List ℚ) (hg : gains.length = dms.length) (d nIters nActs : ℕ) (hN : 1 ≤ nIters) (saveSlopes saveDm : Bool) (hstore : saveDm = true → nActs = M.length)

include ho hcal hne hdms hkept hrows hcols hinv hg hN hstore

/-- **C165 (whole, periodic).** The whole simulation with turbulence that repeats itself every `T` frames: with gains for which the loop is stable every command comes as close as one likes to repeating itself every `T` frames,
and its mean over any `T` successive frames to the mean of what the control matrix reconstructs from the uncorrected measurements. -/
theorem C165_whole_periodic (hgains : ∀ g ∈ gains, StableGain d g) (turb : ℕ → ℕ → ℕ → ℕ → ℚ) (T : ℕ) (hT : ∀ k, turb (k + T) = turb k) (p : ℕ) (hp : p < M.length) (ε : ℚ) (hε : 0 < ε) :
    ∃ K, ∀ n, ∃ s' ts, runLoop (o.sys dms' P d nIters saveSlopes saveDm) (o.plant turb) (initial (o.sys dms' P d nIters saveSlopes saveDm) (controls dms' gains) o.totalMeas nActs ()) (List.replicate n (controls dms' gains)) = .ok (s', ts) ∧
      ts.length = n ∧ ∃ x : ℕ → ℚ, (∀ (i : ℕ) (t : Trace Stack), ts[i]? = some t → t.cmds[p]? = some (x i)) ∧
        ∀ i, K ≤ i → |x (i + T) - x i| < ε ∧ |∑ k ∈ Finset.range T, (x (i + k) - reconstructed P (o.uncorrected (turb k)) p)| < ε := by
  have hst := hgains _ (gainOf_mem o ho totalActs dms dms' M hcal hdms gains hg p hp)
  set a : ℕ → ℚ := fun k => reconstructed P (o.uncorrected (turb k)) p with ha
  have haT : ∀ k, a (k + T) = a k := fun k => by simp only [ha, hT]
  obtain ⟨h1, h2⟩ := C165_periodic d _ hst T a (fun _ => 0) haT fun _ => rfl
  obtain ⟨K1, hK1⟩ := h1 ε hε
  obtain ⟨K2, hK2⟩ := h2 ε hε
  refine ⟨max K1 K2, fun n => ?_⟩
  obtain ⟨s', ts, r1, r2, r3⟩ := C111_whole o ho totalActs dms dms' M hcal hne hdms hkept P hrows hcols hinv gains hg d nIters nActs n hN saveSlopes saveDm hstore turb
  refine ⟨s', ts, r1, r2, fun i => a i - lag d (gainOf (controls dms' gains) p) a (fun _ => 0) i, fun i t ht => (r3 i t ht).1 p hp, fun i hi => ⟨?_, ?_⟩⟩
  · have := hK1 i (le_trans (le_max_left _ _) hi)
    dsimp only at this ⊢
    rw [haT, show ∀ u v w : ℚ, u - v - (u - w) = -(v - w) by intros; ring, abs_neg]
    exact this
  · have := hK2 i (le_trans (le_max_right _ _) hi)
    dsimp only at this ⊢
    have hsum : ∀ n, ∑ k ∈ Finset.range T, a (n + k) = ∑ k ∈ Finset.range T, a k := by
      intro n
      induction n with
      | zero => simp
      | succ n ih =>
        rw [← ih]
        have s1 := Finset.sum_range_succ (fun k => a (n + k)) T
        have s2 := Finset.sum_range_succ' (fun k => a (n + k)) T
        rw [s1] at s2
        simp only [haT, add_zero] at s2
        rw [Finset.sum_congr rfl fun k _ => by rw [show n + 1 + k = n + (k + 1) by omega]]
        linarith
    rw [Finset.sum_sub_distrib, Finset.sum_sub_distrib, hsum, sub_sub_cancel_left, abs_neg]
    simpa using this

/-- **C165 (whole, vibration).** The whole simulation, one command: if what the control matrix reconstructs from the uncorrected measurements is, up to `η`, a vibration, then after the start the error of the command is, up to a multiple of `η` that depends only on the loop,
a vibration of the same frequency, changed by `rejection`. -/
theorem C165_whole_vibration (hgains : ∀ g ∈ gains, StableGain d g) (p : ℕ) (hp : p < M.length) : ∃ C : ℝ, 0 < C ∧ ∀ (turb : ℕ → ℕ → ℕ → ℕ → ℚ) (ω A φ η : ℝ),
    (∀ k : ℕ, |(reconstructed P (o.uncorrected (turb k)) p : ℝ) - A * Real.cos (ω * k + φ)| ≤ η) → ∀ ε : ℝ, 0 < ε →
    ∃ K, ∀ n, ∃ s' ts, runLoop (o.sys dms' P d nIters saveSlopes saveDm) (o.plant turb) (initial (o.sys dms' P d nIters saveSlopes saveDm) (controls dms' gains) o.totalMeas nActs ()) (List.replicate n (controls dms' gains)) = .ok (s', ts) ∧
      ts.length = n ∧ ∀ (i : ℕ) (t : Trace Stack), K ≤ i → ts[i]? = some t → ∃ x, t.cmds[p]? = some x ∧
        |(reconstructed P (o.uncorrected (turb i)) p : ℝ) - x - (rejection d (gainOf (controls dms' gains) p : ℚ) ω * (A * Complex.exp ((ω * i + φ) * Complex.I))).re| < C * η + ε := by
  obtain ⟨C, hC0, hC⟩ := C165_vibration d _ (hgains _ (gainOf_mem o ho totalActs dms dms' M hcal hdms gains hg p hp))
  refine ⟨C, hC0, fun turb ω A φ η hη ε hε => ?_⟩
  obtain ⟨K, hK⟩ := hC ω A φ η (fun k => reconstructed P (o.uncorrected (turb k)) p) hη ε hε
  refine ⟨K, fun n => ?_⟩
  obtain ⟨s', ts, r1, r2, r3⟩ := C111_whole o ho totalActs dms dms' M hcal hne hdms hkept P hrows hcols hinv gains hg d nIters nActs n hN saveSlopes saveDm hstore turb
  refine ⟨s', ts, r1, r2, fun i t hi ht => ⟨_, (r3 i t ht).1 p hp, ?_⟩⟩
  push_cast
  rw [sub_sub_cancel]
  exact hK i hi

/-- **C165 (whole, long exposure).** The whole simulation: if what the control matrix reconstructs from the uncorrected measurements stays within `B`, the errors of a command over all frames of a run add up to at most a constant times `B`, however long the run. -/
theorem C165_whole_mean (hgains : ∀ g ∈ gains, StableGain d g) (p : ℕ) (hp : p < M.length) : ∃ C : ℚ, 0 < C ∧ ∀ (turb : ℕ → ℕ → ℕ → ℕ → ℚ) (B : ℚ), (∀ k, |reconstructed P (o.uncorrected (turb k)) p| ≤ B) → ∀ n,
    ∃ s' ts, runLoop (o.sys dms' P d nIters saveSlopes saveDm) (o.plant turb) (initial (o.sys dms' P d nIters saveSlopes saveDm) (controls dms' gains) o.totalMeas nActs ()) (List.replicate n (controls dms' gains)) = .ok (s', ts) ∧
      ts.length = n ∧ ∃ x : ℕ → ℚ, (∀ (i : ℕ) (t : Trace Stack), ts[i]? = some t → t.cmds[p]? = some (x i)) ∧ |∑ k ∈ Finset.range n, (reconstructed P (o.uncorrected (turb k)) p - x k)| ≤ C * B := by
  obtain ⟨C, hC0, hC⟩ := C165_mean d _ (hgains _ (gainOf_mem o ho totalActs dms dms' M hcal hdms gains hg p hp))
  refine ⟨C, hC0, fun turb B hB n => ?_⟩
  obtain ⟨s', ts, r1, r2, r3⟩ := C111_whole o ho totalActs dms dms' M hcal hne hdms hkept P hrows hcols hinv gains hg d nIters nActs n hN saveSlopes saveDm hstore turb
  refine ⟨s', ts, r1, r2, fun i => reconstructed P (o.uncorrected (turb i)) p - lag d (gainOf (controls dms' gains) p) (fun k => reconstructed P (o.uncorrected (turb k)) p) (fun _ => 0) i, fun i t ht => (r3 i t ht).1 p hp, ?_⟩
  simp only [sub_sub_cancel]
  exact hC B _ hB n

end

/-! ### Non-vacuity -/

private theorem default_stable2 : StableGain 2 (3 / 5) := (C79_exact 2 (3 / 5) 1 one_ne_zero).mp ((C79_default_gain 2 1 one_ne_zero).mpr (le_refl 2))

/-- The default gain and a delay of two frames: a vibration of four frames, 1, 0, -1, 0, … (exactly a cosine, `η = 0`). -/
example : ∃ C : ℝ, ∀ ε : ℝ, 0 < ε → ∃ N, ∀ n, N ≤ n →
    |(lag 2 (3 / 5) (fun n => if n % 4 = 0 then 1 else if n % 4 = 2 then -1 else 0) (fun _ => 0) n : ℝ) - (rejection 2 ((3 / 5 : ℚ) : ℝ) (Real.pi / 2) * ((1 : ℝ) * Complex.exp (((Real.pi / 2 : ℝ) * n + (0 : ℝ)) * Complex.I))).re| < C * 0 + ε := by
  obtain ⟨C, _, hC⟩ := C165_vibration 2 (3 / 5) default_stable2
  refine ⟨C, hC (Real.pi / 2) 1 0 0 _ fun n => ?_⟩
  have hn := Nat.div_add_mod n 4
  have hc : Real.cos (Real.pi / 2 * n + 0) = Real.cos (Real.pi / 2 * (n % 4 : ℕ)) := by
    have : Real.pi / 2 * (n : ℝ) + 0 = Real.pi / 2 * (n % 4 : ℕ) + ((n / 4 : ℕ) : ℝ) * (2 * Real.pi) := by
      have : (n : ℝ) = 4 * (n / 4 : ℕ) + (n % 4 : ℕ) := by exact_mod_cast hn.symm
      rw [this]
      ring
    rw [this, Real.cos_add_nat_mul_two_pi]
  rw [hc]
  have h4 : n % 4 < 4 := Nat.mod_lt _ (by norm_num)
  interval_cases h : n % 4
  · norm_num
  · norm_num
  · norm_num
  · norm_num
    rw [show Real.pi / 2 * 3 = Real.pi / 2 + Real.pi by ring, Real.cos_add_pi, Real.cos_pi_div_two, neg_zero]

/-- The same loop amplifies vibrations of ten frames. -/
example : ¬ ‖rejection 2 ((3 / 5 : ℚ) : ℝ) (Real.pi / 5)‖ < 1 := by
  have := (C165_amplified 2 (3 / 5) default_stable2).2
  norm_num at this ⊢
  exact this.le

/-- Two frames that repeat themselves. -/
example : Settles fun n => lag 2 (3 / 5) (fun n => if n % 2 = 0 then 1 else -1) (fun _ => 0) (n + 2) - lag 2 (3 / 5) (fun n => if n % 2 = 0 then 1 else -1) (fun _ => 0) n :=
  (C165_periodic 2 (3 / 5) default_stable2 2 _ _ (fun n => by simp) fun _ => rfl).1

/-- At most a third is left of a vibration of about 63 frames. -/
example : ‖rejection 2 (3 / 5) (1 / 10)‖ ≤ 1 / 3 := by
  have := C165_slow 2 (3 / 5) (by norm_num) (1 / 10) (by norm_num)
  refine this.trans ?_
  rw [abs_of_pos (by norm_num)]
  norm_num

/-- A vibration of two frames is reduced by no loop with an even delay: `4 sin((d + 1/2) π) = 4`. -/
example : ¬ ‖rejection 2 ((3 / 5 : ℚ) : ℝ) Real.pi‖ < 1 := by
  rw [C165_reduced 2 (3 / 5) default_stable2 Real.pi (by rw [Real.sin_pi_div_two]; norm_num)]
  rw [Real.sin_pi_div_two, show (((2 : ℕ) : ℝ) + 1 / 2) * Real.pi = Real.pi / 2 + 2 * Real.pi by push_cast; ring, Real.sin_add_two_pi, Real.sin_pi_div_two]
  norm_num

/-- The simulation of the example of C111 with turbulence that turns over every frame. -/
example (ε : ℚ) (hε : 0 < ε) : ∃ dms', wholeOptics.calibrate 4 wholeDms = .ok (dms', wholeImat) ∧ ∃ K, ∀ n, ∃ s' ts,
    runLoop (wholeOptics.sys dms' wholeCmat 2 100 true false) (wholeOptics.plant fun k l i _ => if l = 0 then (if k % 2 = 0 then 3 * i else -3 * i) else 0) (initial (wholeOptics.sys dms' wholeCmat 2 100 true false) (controls dms' [3 / 5, 3 / 5]) 4 4 ())
      (List.replicate n (controls dms' [3 / 5, 3 / 5])) = .ok (s', ts) ∧ ts.length = n ∧ ∃ x : ℕ → ℚ, (∀ (i : ℕ) (t : Trace Stack), ts[i]? = some t → t.cmds[0]? = some (x i)) ∧ ∀ i, K ≤ i → |x (i + 2) - x i| < ε := by
  obtain ⟨dms', h1, h2⟩ := whole_ok
  obtain ⟨K, hK⟩ := C165_whole_periodic wholeOptics whole_sound 4 wholeDms dms' wholeImat h1 (by simp [wholeDms])
    (by intro d hd; simp only [wholeDms, List.mem_cons, List.not_mem_nil, or_false] at hd; rcases hd with rfl | rfl <;> exact ⟨rfl, rfl⟩) h2 wholeCmat rfl (by decide) whole_undoes
    [3 / 5, 3 / 5] rfl 2 100 4 (by norm_num) true false (fun h => nomatch h) (by intro g hg; have : g = 3 / 5 := by simpa using hg
                                                                                 subst this; exact default_stable2)
    (fun k l i _ => if l = 0 then (if k % 2 = 0 then 3 * i else -3 * i) else 0) 2 (fun k => by simp) 0 (by decide) ε hε
  refine ⟨dms', h1, K, fun n => ?_⟩
  obtain ⟨s', ts, r1, r2, x, r3, r4⟩ := hK n
  exact ⟨s', ts, r1, r2, x, r3, fun i hi => (r4 i hi).1⟩

/-- A bounded aberration without any regularity. -/
example (f : ℕ → Bool) : ∃ C : ℚ, ∀ n, |∑ k ∈ Finset.range n, lag 2 (3 / 5) (fun n => if f n then 1 else -1) (fun _ => 0) k| ≤ C * 1 := by
  obtain ⟨C, _, hC⟩ := C165_mean 2 (3 / 5) default_stable2
  exact ⟨C, hC 1 _ fun n => by split_ifs <;> norm_num⟩

end Soapy.Props
