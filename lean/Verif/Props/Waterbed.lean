/-
Property theorems C165, continued: what a loop gains at some frequencies it loses at others.
-/
import Verif.Props.Vibration
import Mathlib.RingTheory.RootsOfUnity.Complex
import Mathlib.Analysis.Complex.Polynomial.Basic

namespace Soapy.Props

open Filter Topology Soapy.Mirror Soapy.Los Soapy.Whole Soapy.Loop Soapy.Control

/-- The `k`-th of `N` frequencies spread evenly round the circle, in radians per frame. -/
noncomputable def evenFrequency (N k : ℕ) : ℝ := (2 * k + 1) * Real.pi / N

/-- The `N` roots of -1, multiplied out. -/
theorem evenFrequency_prod (N : ℕ) (hN : 0 < N) (x : ℂ) : ∏ k ∈ Finset.range N, (x - Complex.exp (evenFrequency N k * Complex.I)) = x ^ N + 1 := by
  have hN0 : (N : ℂ) ≠ 0 := by exact_mod_cast hN.ne'
  have hprim := Complex.isPrimitiveRoot_exp N hN.ne'
  set w : ℂ := Complex.exp (Real.pi * Complex.I / N) with hw
  have hwN : w ^ N = -1 := by
    rw [hw, ← Complex.exp_nat_mul, mul_div_cancel₀ _ hN0, Complex.exp_pi_mul_I]
  have hroots := hprim.nthRoots_eq hwN
  have hcard : Multiset.card (Polynomial.nthRoots N (-1 : ℂ)) = N := by
    rw [hroots, Multiset.card_map, Multiset.card_range]
  have hmonic : (Polynomial.X ^ N - Polynomial.C (-1 : ℂ)).Monic := Polynomial.monic_X_pow_sub_C _ hN.ne'
  have hsplit := (IsAlgClosed.splits (Polynomial.X ^ N - Polynomial.C (-1 : ℂ))).eval_eq_prod_roots_of_monic hmonic x
  have hr : (Polynomial.X ^ N - Polynomial.C (-1 : ℂ)).roots = Polynomial.nthRoots N (-1 : ℂ) := rfl
  rw [hr, hroots, Multiset.map_map] at hsplit
  have e : (x ^ N + 1 : ℂ) = Polynomial.eval x (Polynomial.X ^ N - Polynomial.C (-1 : ℂ)) := by simp
  rw [e, hsplit]
  show ((Multiset.range N).map _).prod = _
  congr 1
  refine Multiset.map_congr rfl fun k _ => ?_
  simp only [Function.comp]
  rw [hw, ← Complex.exp_nat_mul, ← Complex.exp_add, evenFrequency]
  congr 2
  push_cast
  field_simp

/-- **C165 (waterbed).** Whatever the delay and the stable gain, the amplitudes that are left of vibrations of `N` frequencies spread evenly over all there are have a product that comes as close as one likes to 2: what is gained at some frequencies is lost at others. -/
theorem C165_waterbed (d : ℕ) (g : ℚ) (h : StableGain d g) : Tendsto (fun N => ∏ k ∈ Finset.range N, ‖rejection d g (evenFrequency N k)‖) atTop (𝓝 2) := by
  -- the denominator as a polynomial
  set p : Polynomial ℂ := Polynomial.X ^ (d + 1) - (Polynomial.X ^ d - Polynomial.C ((g : ℝ) : ℂ)) with hp
  have hdeg : (Polynomial.X ^ d - Polynomial.C ((g : ℝ) : ℂ)).degree < ((d + 1 : ℕ) : WithBot ℕ) := by
    refine lt_of_le_of_lt (Polynomial.degree_sub_le _ _) (max_lt ?_ ?_)
    · rw [Polynomial.degree_X_pow]; exact_mod_cast Nat.lt_succ_self d
    · exact lt_of_le_of_lt Polynomial.degree_C_le (by exact_mod_cast Nat.succ_pos d)
  have hmonic : p.Monic := Polynomial.monic_X_pow_sub hdeg
  have heval : ∀ z : ℂ, z ^ d * (z - 1) + ((g : ℝ) : ℂ) = (p.roots.map fun r => z - r).prod := by
    intro z
    rw [← (IsAlgClosed.splits p).eval_eq_prod_roots_of_monic hmonic z, hp]
    simp
    ring
  have hin : ∀ r ∈ p.roots, ‖r‖ < 1 := by
    intro r hr
    have h0 : p.eval r = 0 := (Polynomial.mem_roots'.mp hr).2
    have h1 : r ^ d * (r - 1) = -((g : ℝ) : ℂ) := by
      rw [hp] at h0
      simp at h0
      linear_combination h0
    by_contra hcon
    have := Stable.root_gain d g (by exact_mod_cast h.1) r (not_lt.mp hcon) h1
    have h2 := h.2
    rw [Stable.limitGain] at this
    linarith
  -- the product in closed form
  have hclosed : ∀ N : ℕ, 0 < N → ∏ k ∈ Finset.range N, ‖rejection d g (evenFrequency N k)‖ = 2 / (p.roots.map fun r => ‖r ^ N + 1‖).prod := by
    intro N hN
    have e1 : ∀ k, ‖rejection d g (evenFrequency N k)‖ = ‖1 - Complex.exp (evenFrequency N k * Complex.I)‖ / (p.roots.map fun r => ‖r - Complex.exp (evenFrequency N k * Complex.I)‖).prod := by
      intro k
      rw [rejection, norm_div, norm_mul, norm_pow, Complex.norm_exp_ofReal_mul_I, one_pow, one_mul, norm_sub_rev, heval]
      congr 1
      rw [show ∀ y : ℂ, ‖y‖ = normHom y from fun _ => rfl, ← Multiset.prod_hom, Multiset.map_map]
      congr 1
      exact Multiset.map_congr rfl fun r _ => norm_sub_rev (Complex.exp (evenFrequency N k * Complex.I)) r
    rw [Finset.prod_congr rfl fun k _ => e1 k, Finset.prod_div_distrib, ← norm_prod, evenFrequency_prod N hN]
    congr 1
    · norm_num
    · have := Multiset.prod_map_prod_map (Multiset.range N) p.roots (f := fun k r => ‖r - Complex.exp (evenFrequency N k * Complex.I)‖)
      refine this.trans ?_
      congr 1
      refine Multiset.map_congr rfl fun r _ => ?_
      rw [← evenFrequency_prod N hN r, norm_prod]
      rfl
  have hlim : Tendsto (fun N : ℕ => (p.roots.map fun r => ‖r ^ N + 1‖).prod) atTop (𝓝 (p.roots.map fun _ => (1 : ℝ)).prod) := by
    refine tendsto_multiset_prod p.roots fun r hr => ?_
    have h0 : Tendsto (fun N : ℕ => r ^ N + 1) atTop (𝓝 (0 + 1)) := (tendsto_pow_atTop_nhds_zero_of_norm_lt_one (hin r hr)).add tendsto_const_nhds
    simpa using h0.norm
  have hone : (p.roots.map fun _ => (1 : ℝ)).prod = 1 := by simp
  rw [hone] at hlim
  have h2 : Tendsto (fun N : ℕ => 2 / (p.roots.map fun r => ‖r ^ N + 1‖).prod) atTop (𝓝 (2 / 1)) := tendsto_const_nhds.div hlim one_ne_zero
  rw [div_one] at h2
  refine h2.congr' ?_
  filter_upwards [eventually_gt_atTop 0] with N hN
  exact (hclosed N hN).symm

/-- No stable loop takes away everything of a vibration whose frequency is one of those. -/
theorem evenFrequency_left (d : ℕ) (g : ℚ) (h : StableGain d g) : ∀ᶠ N in atTop, ∀ k ∈ Finset.range N, ‖rejection d g (evenFrequency N k)‖ ≠ 0 := by
  have hw := (C165_waterbed d g h).eventually (lt_mem_nhds (show (0 : ℝ) < 2 by norm_num))
  filter_upwards [hw] with N hN k hk
  exact (Finset.prod_ne_zero_iff.mp hN.ne') k hk

/-- **C165 (average).** In decibels, or in any other logarithm, what a stable loop takes away comes to nothing on average over all frequencies, whatever the delay and the gain. -/
theorem C165_average (d : ℕ) (g : ℚ) (h : StableGain d g) : Tendsto (fun N : ℕ => (∑ k ∈ Finset.range N, Real.log ‖rejection d g (evenFrequency N k)‖) / N) atTop (𝓝 0) := by
  have hl := (C165_waterbed d g h).log (by norm_num)
  have hq := hl.div_atTop tendsto_natCast_atTop_atTop
  refine hq.congr' ?_
  filter_upwards [evenFrequency_left d g h] with N hN
  rw [Real.log_prod hN]

/-- **C165 (errors, waterbed).** The amplitudes that errors of measurement leave at `N` frequencies spread evenly over all there are have a product that is, as nearly as one likes, the `N`-th power of the gain, whatever the delay. -/
theorem C165_errors_waterbed (d : ℕ) (g : ℚ) (h : StableGain d g) : Tendsto (fun N => (∏ k ∈ Finset.range N, ‖rejection d g (evenFrequency N k) - 1‖) / (g : ℝ) ^ N) atTop (𝓝 1) := by
  have hg : (0 : ℝ) < g := by exact_mod_cast h.1
  have hw := (C165_waterbed d g h).div_const 2
  rw [div_self two_ne_zero] at hw
  refine hw.congr' ?_
  filter_upwards [eventually_gt_atTop 0] with N hN
  have hz : ∏ k ∈ Finset.range N, ‖1 - Complex.exp (evenFrequency N k * Complex.I)‖ = 2 := by
    rw [← norm_prod, evenFrequency_prod N hN]; norm_num
  have e : ∀ k ∈ Finset.range N, ‖rejection d g (evenFrequency N k) - 1‖ * ‖1 - Complex.exp (evenFrequency N k * Complex.I)‖ = g * ‖rejection d g (evenFrequency N k)‖ := by
    intro k _
    set z : ℂ := Complex.exp (evenFrequency N k * Complex.I) with hzdef
    have hz1 : ‖z‖ = 1 := Complex.norm_exp_ofReal_mul_I _
    have hden := rejection_denominator d g h z hz1
    have e1 : rejection d g (evenFrequency N k) - 1 = -((g : ℝ) : ℂ) / (z ^ d * (z - 1) + ((g : ℝ) : ℂ)) := by
      rw [rejection, ← hzdef]
      field_simp
      ring
    rw [e1, rejection, ← hzdef, norm_div, norm_div, norm_neg, Complex.norm_real, Real.norm_of_nonneg hg.le, norm_mul, norm_pow, hz1, one_pow, one_mul, norm_sub_rev 1 z]
    ring
  have := Finset.prod_congr rfl e
  rw [Finset.prod_mul_distrib, hz, Finset.prod_mul_distrib, Finset.prod_const, Finset.card_range] at this
  rw [eq_div_iff (pow_pos hg N).ne']
  linarith

/-- **C165 (errors, average).** On the average of the logarithm over all frequencies, errors of measurement are multiplied by the gain. -/
theorem C165_errors_average (d : ℕ) (g : ℚ) (h : StableGain d g) : Tendsto (fun N : ℕ => (∑ k ∈ Finset.range N, Real.log ‖rejection d g (evenFrequency N k) - 1‖) / N) atTop (𝓝 (Real.log g)) := by
  have hg : (0 : ℝ) < g := by exact_mod_cast h.1
  have hw := C165_errors_waterbed d g h
  have hq := (hw.log one_ne_zero).div_atTop tendsto_natCast_atTop_atTop
  have hs := hq.add_const (Real.log g)
  rw [zero_add] at hs
  refine hs.congr' ?_
  filter_upwards [hw.eventually (lt_mem_nhds (show (0 : ℝ) < 1 by norm_num)), eventually_gt_atTop 0] with N hN hN0
  have hN' : (N : ℝ) ≠ 0 := by exact_mod_cast hN0.ne'
  have hp : ∏ k ∈ Finset.range N, ‖rejection d g (evenFrequency N k) - 1‖ ≠ 0 := by
    intro h0
    rw [h0, zero_div] at hN
    exact lt_irrefl _ hN
  rw [Real.log_div hp (pow_pos hg N).ne', Real.log_pow, Real.log_prod (Finset.prod_ne_zero_iff.mp hp)]
  field_simp
  ring

/-- **C165 (somewhere).** Every stable loop makes vibrations of some frequency larger: no gain reduces them all. -/
theorem C165_somewhere (d : ℕ) (g : ℚ) (h : StableGain d g) : ∃ ω : ℝ, 1 < ‖rejection d g ω‖ := by
  by_contra hcon
  push Not at hcon
  obtain ⟨N, hN⟩ := ((C165_waterbed d g h).eventually (lt_mem_nhds (show (1 : ℝ) < 2 by norm_num))).exists
  exact absurd (Finset.prod_le_one (fun k _ => norm_nonneg _) fun k _ => hcon (evenFrequency N k)) (not_le.mpr hN)

/-- The gain of the default configuration and a delay of two frames: a stable loop, hence with frequencies at which it amplifies. -/
example : ∃ ω : ℝ, 1 < ‖rejection 2 ((3 / 5 : ℚ) : ℝ) ω‖ :=
  C165_somewhere 2 (3 / 5) ((C79_exact 2 (3 / 5) 1 one_ne_zero).mp ((C79_default_gain 2 1 one_ne_zero).mpr (le_refl 2)))

/-- The amplitude left is the same for a frequency and its mirror image. -/
theorem rejection_mirror (d : ℕ) (g ω : ℝ) : ‖rejection d g (2 * Real.pi - ω)‖ = ‖rejection d g ω‖ := by
  have e : Complex.exp (((2 * Real.pi - ω : ℝ) : ℂ) * Complex.I) = starRingEnd ℂ (Complex.exp (ω * Complex.I)) := by
    rw [← Complex.exp_conj, map_mul, Complex.conj_ofReal, Complex.conj_I]
    have : (((2 * Real.pi - ω : ℝ) : ℂ) * Complex.I) = (ω : ℂ) * -Complex.I + 2 * Real.pi * Complex.I := by push_cast; ring
    rw [this, Complex.exp_add, Complex.exp_two_pi_mul_I, mul_one]
  have e2 : rejection d g (2 * Real.pi - ω) = starRingEnd ℂ (rejection d g ω) := by
    rw [rejection, rejection, e]
    simp only [map_div₀, map_mul, map_pow, map_sub, map_add, map_one, Complex.conj_ofReal]
  rw [e2, RCLike.norm_conj]

/-- **C165 (band).** A stable loop that leaves at most `ρ` of every vibration up to the frequency `θ` has no bound `M` on what it leaves at all frequencies below `ρ ^ (-θ / (π - θ))`: the wider and the deeper the band in which it reduces, the more it amplifies beyond, whatever the delay and the gain. -/
theorem C165_band (d : ℕ) (g : ℚ) (h : StableGain d g) (θ ρ M : ℝ) (hθ : 0 ≤ θ) (hπ : θ ≤ Real.pi)
    (hband : ∀ ω, 0 ≤ ω → ω ≤ θ → ‖rejection d g ω‖ ≤ ρ) (hall : ∀ ω, ‖rejection d g ω‖ ≤ M) : θ * Real.log (1 / ρ) ≤ (Real.pi - θ) * Real.log M := by
  have hpi := Real.pi_pos
  set m : ℕ → ℕ := fun N => ⌊θ / (2 * Real.pi) * N⌋₊ with hm
  have hmlim : Tendsto (fun N : ℕ => (m N : ℝ) / N) atTop (𝓝 (θ / (2 * Real.pi))) :=
    (tendsto_nat_floor_mul_div_atTop (by positivity)).comp tendsto_natCast_atTop_atTop
  have hmle : ∀ N : ℕ, 2 * Real.pi * m N ≤ θ * N := by
    intro N
    have : (m N : ℝ) ≤ θ / (2 * Real.pi) * N := Nat.floor_le (by positivity)
    calc 2 * Real.pi * m N ≤ 2 * Real.pi * (θ / (2 * Real.pi) * N) := by gcongr
      _ = θ * N := by field_simp
  have hm2 : ∀ N : ℕ, 2 * m N ≤ N := by
    intro N
    have h1 : 2 * Real.pi * m N ≤ Real.pi * N := (hmle N).trans (by gcongr)
    have h2 : (2 * m N : ℝ) ≤ N := by
      refine le_of_mul_le_mul_left ?_ hpi
      linarith
    exact_mod_cast h2
  have hbound : ∀ᶠ N : ℕ in atTop, (∑ k ∈ Finset.range N, Real.log ‖rejection d g (evenFrequency N k)‖) / N ≤ 2 * ((m N : ℝ) / N) * Real.log ρ + (1 - 2 * ((m N : ℝ) / N)) * Real.log M := by
    filter_upwards [evenFrequency_left d g h, eventually_gt_atTop 0] with N hN hN0
    have hNpos : (0 : ℝ) < N := by exact_mod_cast hN0
    have hle := hm2 N
    have hfreq : ∀ k, k < m N → 0 ≤ evenFrequency N k ∧ evenFrequency N k ≤ θ := by
      intro k hk
      rw [evenFrequency]
      refine ⟨by positivity, ?_⟩
      rw [div_le_iff₀ hNpos]
      have : (2 * k + 1 : ℝ) ≤ 2 * m N := by exact_mod_cast (by omega : 2 * k + 1 ≤ 2 * m N)
      calc (2 * (k : ℝ) + 1) * Real.pi ≤ 2 * m N * Real.pi := by gcongr
        _ ≤ θ * N := by linarith [hmle N]
    have hpos : ∀ k ∈ Finset.range N, 0 < ‖rejection d g (evenFrequency N k)‖ := fun k hk => lt_of_le_of_ne (norm_nonneg _) (hN k hk).symm
    have hlow : ∀ k ∈ Finset.range N, k < m N → Real.log ‖rejection d g (evenFrequency N k)‖ ≤ Real.log ρ := fun k hk hlt =>
      Real.log_le_log (hpos k hk) (hband _ (hfreq k hlt).1 (hfreq k hlt).2)
    have hhigh : ∀ k ∈ Finset.range N, N - m N ≤ k → Real.log ‖rejection d g (evenFrequency N k)‖ ≤ Real.log ρ := by
      intro k hk hge
      have hkN := Finset.mem_range.mp hk
      refine Real.log_le_log (hpos k hk) ?_
      have e : evenFrequency N k = 2 * Real.pi - evenFrequency N (N - 1 - k) := by
        rw [evenFrequency, evenFrequency, Nat.cast_sub (by omega), Nat.cast_sub (by omega)]
        push_cast
        field_simp
        ring
      rw [e, rejection_mirror]
      have := hfreq (N - 1 - k) (by omega)
      exact hband _ this.1 this.2
    have hmid : ∀ k ∈ Finset.range N, Real.log ‖rejection d g (evenFrequency N k)‖ ≤ Real.log M := fun k hk => Real.log_le_log (hpos k hk) (hall _)
    rw [div_le_iff₀ hNpos, Finset.range_eq_Ico, ← Finset.sum_Ico_consecutive _ (Nat.zero_le (m N)) (by omega : m N ≤ N), ← Finset.sum_Ico_consecutive _ (by omega : m N ≤ N - m N) (Nat.sub_le _ _)]
    have s1 := Finset.sum_le_card_nsmul (Finset.Ico 0 (m N)) (fun k => Real.log ‖rejection d g (evenFrequency N k)‖) (Real.log ρ) fun k hk => by
      rw [Finset.mem_Ico] at hk
      exact hlow k (Finset.mem_range.mpr (by omega)) hk.2
    have s2 := Finset.sum_le_card_nsmul (Finset.Ico (m N) (N - m N)) (fun k => Real.log ‖rejection d g (evenFrequency N k)‖) (Real.log M) fun k hk => by
      rw [Finset.mem_Ico] at hk
      exact hmid k (Finset.mem_range.mpr (by omega))
    have s3 := Finset.sum_le_card_nsmul (Finset.Ico (N - m N) N) (fun k => Real.log ‖rejection d g (evenFrequency N k)‖) (Real.log ρ) fun k hk => by
      rw [Finset.mem_Ico] at hk
      exact hhigh k (Finset.mem_range.mpr hk.2) hk.1
    rw [Nat.card_Ico, nsmul_eq_mul] at s1 s2 s3
    rw [Nat.sub_zero] at s1
    rw [show N - m N - m N = N - 2 * m N by omega, Nat.cast_sub hle] at s2
    rw [show N - (N - m N) = m N by omega] at s3
    push_cast at s2
    have e : (2 * ((m N : ℝ) / N) * Real.log ρ + (1 - 2 * ((m N : ℝ) / N)) * Real.log M) * N = 2 * m N * Real.log ρ + (N - 2 * m N) * Real.log M := by
      field_simp
    rw [e]
    linarith
  have hR : Tendsto (fun N : ℕ => 2 * ((m N : ℝ) / N) * Real.log ρ + (1 - 2 * ((m N : ℝ) / N)) * Real.log M) atTop (𝓝 (2 * (θ / (2 * Real.pi)) * Real.log ρ + (1 - 2 * (θ / (2 * Real.pi))) * Real.log M)) :=
    ((hmlim.const_mul 2).mul_const _).add (((hmlim.const_mul 2).const_sub 1).mul_const _)
  have h0 := le_of_tendsto_of_tendsto (C165_average d g h) hR hbound
  rw [one_div, Real.log_inv]
  have e : Real.pi * (2 * (θ / (2 * Real.pi)) * Real.log ρ + (1 - 2 * (θ / (2 * Real.pi))) * Real.log M) = θ * Real.log ρ + (Real.pi - θ) * Real.log M := by
    field_simp
  have := mul_nonneg hpi.le h0
  rw [e] at this
  linarith

/-- No delay and a gain of one: at most half is left up to half a radian per frame and at most twice anywhere. -/
example : (1 / 2 : ℝ) * Real.log (1 / (1 / 2)) ≤ (Real.pi - 1 / 2) * Real.log 2 := by
  have hs : StableGain 0 1 := ⟨one_pos, by norm_num⟩
  have hn : ∀ ω : ℝ, ‖rejection 0 ((1 : ℚ) : ℝ) ω‖ = ‖Complex.exp (Complex.I * ω) - 1‖ := by
    intro ω
    have e : rejection 0 ((1 : ℚ) : ℝ) ω = (Complex.exp (ω * Complex.I) - 1) / Complex.exp (ω * Complex.I) := by
      rw [rejection]; simp
    rw [e, norm_div, Complex.norm_exp_ofReal_mul_I, div_one, mul_comm]
  refine C165_band 0 1 hs (1 / 2) (1 / 2) 2 (by norm_num) (by linarith [Real.two_le_pi]) (fun ω h0 h1 => ?_) fun ω => ?_
  · rw [hn]
    exact (Real.norm_exp_I_mul_ofReal_sub_one_le).trans (by rwa [Real.norm_of_nonneg h0])
  · rw [hn]
    refine (norm_sub_le _ _).trans ?_
    rw [mul_comm, Complex.norm_exp_ofReal_mul_I]
    norm_num

end Soapy.Props
