/-
When solutions of x(n+1) = x(n) - g x(n-d) go to zero: exactly for 0 < g < 2 sin(π / (2 (2 d + 1))).
-/
import Mathlib.Analysis.Normed.Algebra.GelfandFormula
import Mathlib.Analysis.SpecialFunctions.Trigonometric.Bounds
import Mathlib.LinearAlgebra.Eigenspace.Minpoly
import Mathlib.Topology.Algebra.Module.FiniteDimension
import Mathlib.Analysis.Normed.Module.FiniteDimension
import Mathlib.Analysis.SpecialFunctions.Complex.Arg

namespace Soapy.Stable

open Filter Topology

/-- The largest gain, not itself stable, for a delay of `d` frames. -/
noncomputable def limitGain (d : ℕ) : ℝ := 2 * Real.sin (Real.pi / (2 * (2 * d + 1)))

/-! ### Roots -/

theorem angle_pos (d : ℕ) : (0 : ℝ) < 2 * d + 1 := by positivity

/-- A root that is not inside the unit circle needs a gain of at least `limitGain`. -/
theorem root_gain (d : ℕ) (g : ℝ) (hg : 0 < g) (z : ℂ) (hz : 1 ≤ ‖z‖) (h : z ^ d * (z - 1) = -(g : ℂ)) : limitGain d ≤ g := by
  -- upper half plane is enough
  wlog him : 0 ≤ z.arg generalizing z with H
  · refine H (starRingEnd ℂ z) (by simpa using hz) ?_ ?_
    · have := congrArg (starRingEnd ℂ) h
      simpa using this
    · rw [Complex.arg_conj]
      split_ifs
      · exact Real.pi_pos.le
      · linarith [not_le.mp him]
  set r := ‖z‖ with hr
  set θ := z.arg with hθ
  have hr0 : 0 < r := by linarith
  have hπ := Real.pi_pos
  have hθπ : θ ≤ Real.pi := Complex.arg_le_pi z
  have hzr : z = (r : ℂ) * Complex.exp (θ * Complex.I) := (Complex.norm_mul_exp_arg_mul_I z).symm
  have hre : z.re = r * Real.cos θ := by
    rw [hzr]; simp [Complex.exp_ofReal_mul_I_re]
  have him' : z.im = r * Real.sin θ := by
    rw [hzr]; simp [Complex.exp_ofReal_mul_I_im]
  have hpow : ∀ k : ℕ, z ^ k = ((r ^ k * Real.cos (k * θ) : ℝ) : ℂ) + ((r ^ k * Real.sin (k * θ) : ℝ) : ℂ) * Complex.I := by
    intro k
    rw [hzr, mul_pow, ← Complex.exp_nat_mul, ← mul_assoc, show ((k : ℂ) * (θ : ℂ)) = ((k * θ : ℝ) : ℂ) by push_cast; ring, Complex.exp_mul_I, ← Complex.ofReal_cos, ← Complex.ofReal_sin]
    push_cast; ring
  have hexp : z ^ (d + 1) - z ^ d = -(g : ℂ) := by rw [← h]; ring
  rw [hpow, hpow] at hexp
  have e1 := congrArg Complex.re hexp
  have e2 := congrArg Complex.im hexp
  simp only [Complex.sub_re, Complex.sub_im, Complex.add_re, Complex.add_im, Complex.ofReal_re, Complex.ofReal_im, Complex.mul_re, Complex.mul_im, Complex.I_re, Complex.I_im, Complex.neg_re, Complex.neg_im, mul_zero, mul_one, sub_zero, add_zero, zero_add, neg_zero] at e1 e2
  have hrd : 0 < r ^ d := pow_pos hr0 d
  have e3 : r * Real.sin ((d + 1 : ℕ) * θ) = Real.sin (d * θ) := by
    have : r ^ d * (r * Real.sin ((d + 1 : ℕ) * θ) - Real.sin (d * θ)) = 0 := by rw [pow_succ] at e2; linarith
    rcases mul_eq_zero.mp this with h' | h'
    · linarith
    · linarith
  have hang : Real.pi / (2 * d + 1) ≤ θ := by
    by_contra hcon
    have hlt : (2 * d + 1) * θ < Real.pi := by
      have := not_le.mp hcon
      rw [lt_div_iff₀ (angle_pos d)] at this
      linarith
    rcases eq_or_lt_of_le him with h0 | h0
    · rw [← h0] at e1
      simp only [mul_zero, Real.cos_zero, mul_one] at e1
      have : r ^ d ≤ r ^ (d + 1) := pow_le_pow_right₀ hz (Nat.le_succ d)
      linarith
    · have hd0 : (0 : ℝ) ≤ d := Nat.cast_nonneg d
      have hsum : Real.sin ((d + 1 : ℕ) * θ) - Real.sin (d * θ) = 2 * Real.sin (θ / 2) * Real.cos ((2 * d + 1) * θ / 2) := by
        rw [Real.sin_sub_sin]
        push_cast
        ring_nf
      have h1 : 0 < Real.sin (θ / 2) := Real.sin_pos_of_pos_of_lt_pi (by linarith) (by linarith)
      have h2 : 0 < Real.cos ((2 * d + 1) * θ / 2) := Real.cos_pos_of_mem_Ioo ⟨by nlinarith, by linarith⟩
      have h3 : 0 < Real.sin ((d + 1 : ℕ) * θ) := by
        refine Real.sin_pos_of_pos_of_lt_pi (by push_cast; positivity) ?_
        push_cast
        nlinarith
      have h4 : 0 < 2 * Real.sin (θ / 2) * Real.cos ((2 * d + 1) * θ / 2) := by positivity
      have h5 : Real.sin ((d + 1 : ℕ) * θ) ≤ r * Real.sin ((d + 1 : ℕ) * θ) := le_mul_of_one_le_left h3.le hz
      linarith
  -- distance from one
  have hnorm : g = r ^ d * ‖z - 1‖ := by
    have := congrArg norm h
    rw [norm_mul, norm_pow, norm_neg, Complex.norm_real, Real.norm_of_nonneg hg.le] at this
    exact this.symm
  have hdist : (2 * Real.sin (θ / 2)) ^ 2 ≤ ‖z - 1‖ ^ 2 := by
    rw [← Complex.normSq_eq_norm_sq, Complex.normSq_apply, Complex.sub_re, Complex.sub_im, hre, him', Complex.one_re, Complex.one_im]
    have c1 : Real.cos θ = 1 - 2 * Real.sin (θ / 2) ^ 2 := by
      have h' := Real.sin_sq_add_cos_sq (θ / 2)
      have h'' : Real.cos θ = 2 * Real.cos (θ / 2) ^ 2 - 1 := by rw [← Real.cos_two_mul]; ring_nf
      linarith
    have c2 : Real.sin θ ^ 2 + Real.cos θ ^ 2 = 1 := Real.sin_sq_add_cos_sq θ
    have c3 : Real.cos θ ≤ 1 := Real.cos_le_one θ
    have c4 : 0 ≤ (r - 1) * (r + 1 - 2 * Real.cos θ) := mul_nonneg (by linarith) (by linarith)
    have c5 : (r * Real.cos θ - 1) * (r * Real.cos θ - 1) + (r * Real.sin θ - 0) * (r * Real.sin θ - 0) = r ^ 2 * (Real.sin θ ^ 2 + Real.cos θ ^ 2) - 2 * r * Real.cos θ + 1 := by ring
    rw [c5, c2]
    nlinarith
  have hs0 : 0 ≤ Real.sin (θ / 2) := Real.sin_nonneg_of_nonneg_of_le_pi (by linarith) (by linarith)
  have hdist' : 2 * Real.sin (θ / 2) ≤ ‖z - 1‖ := (sq_le_sq₀ (by linarith) (norm_nonneg _)).mp hdist
  have hmono : Real.sin (Real.pi / (2 * (2 * d + 1))) ≤ Real.sin (θ / 2) := by
    have hx : Real.pi / (2 * (2 * d + 1)) = Real.pi / (2 * d + 1) / 2 := by field_simp
    refine Real.sin_le_sin_of_le_of_le_pi_div_two ?_ (by linarith) (by rw [hx]; linarith)
    have : 0 ≤ Real.pi / (2 * (2 * d + 1)) := by positivity
    linarith
  have hone : 1 ≤ r ^ d := one_le_pow₀ hz
  unfold limitGain
  rw [hnorm]
  have : ‖z - 1‖ ≤ r ^ d * ‖z - 1‖ := le_mul_of_one_le_left (norm_nonneg _) hone
  linarith

/-- A gain of at least `limitGain` has a root that is not inside the unit circle. -/
theorem exists_root (d : ℕ) (g : ℝ) (hg : limitGain d ≤ g) : ∃ z : ℂ, 1 ≤ ‖z‖ ∧ z ^ d * (z - 1) = -(g : ℂ) := by
  rcases Nat.eq_zero_or_pos d with rfl | hd
  · have h2 : 2 ≤ g := by
      have : limitGain 0 = 2 := by unfold limitGain; norm_num
      linarith
    refine ⟨((1 - g : ℝ) : ℂ), ?_, by push_cast; ring⟩
    rw [Complex.norm_real, Real.norm_eq_abs]
    exact le_abs.mpr (Or.inr (by linarith))
  have hπ := Real.pi_pos
  have hd1 : (1 : ℝ) ≤ d := by exact_mod_cast hd
  set α := Real.pi / (2 * d + 1) with hα
  set β := Real.pi / (d + 1) with hβ
  have hα0 : 0 < α := by positivity
  have hαβ : α ≤ β := div_le_div_of_nonneg_left hπ.le (by positivity) (by linarith)
  have hαm : (2 * d + 1) * α = Real.pi := by rw [hα]; field_simp
  have hβm : (d + 1) * β = Real.pi := by rw [hβ]; field_simp
  let H : ℝ → ℝ := fun θ => Real.sin (d * θ) ^ d * Real.sin θ - g * Real.sin ((d + 1) * θ) ^ (d + 1)
  have hcont : ContinuousOn H (Set.Icc α β) := by
    apply Continuous.continuousOn
    fun_prop
  have hleft : H α ≤ 0 := by
    have e1 : Real.sin ((d + 1) * α) = Real.sin (d * α) := by
      rw [show (d + 1) * α = Real.pi - d * α by linarith, Real.sin_pi_sub]
    have e2 : Real.sin (d * α) = Real.cos (α / 2) := by
      rw [show d * α = Real.pi / 2 - α / 2 by linarith, Real.sin_pi_div_two_sub]
    have e3 : Real.sin α = 2 * Real.sin (α / 2) * Real.cos (α / 2) := by
      rw [← Real.sin_two_mul]; ring_nf
    have e4 : limitGain d = 2 * Real.sin (α / 2) := by
      unfold limitGain; rw [hα]; congr 2; field_simp
    have hc : 0 ≤ Real.cos (α / 2) := Real.cos_nonneg_of_neg_pi_div_two_le_of_le (by linarith) (by nlinarith)
    have : H α = Real.cos (α / 2) ^ (d + 1) * (limitGain d - g) := by
      simp only [H, e1, e2, e3, e4]; ring
    rw [this]
    exact mul_nonpos_of_nonneg_of_nonpos (pow_nonneg hc _) (by linarith)
  have hright : 0 < H β := by
    have e1 : Real.sin ((d + 1) * β) = 0 := by rw [hβm]; exact Real.sin_pi
    have h1 : 0 < Real.sin (d * β) := Real.sin_pos_of_pos_of_lt_pi (by positivity) (by nlinarith)
    have h2 : 0 < Real.sin β := Real.sin_pos_of_pos_of_lt_pi (by linarith) (by nlinarith)
    simp only [H, e1]
    rw [zero_pow (Nat.succ_ne_zero d)]
    have := mul_pos (pow_pos h1 d) h2
    linarith
  obtain ⟨θ, ⟨h1, h2⟩, h0⟩ := intermediate_value_Icc hαβ hcont ⟨hleft, hright.le⟩
  have hne : θ ≠ β := fun e => by rw [e] at h0; linarith
  have hlt : θ < β := lt_of_le_of_ne h2 hne
  have hθ0 : 0 < θ := by linarith
  have hS : 0 < Real.sin ((d + 1) * θ) := Real.sin_pos_of_pos_of_lt_pi (by positivity) (by nlinarith)
  have hge : Real.sin ((d + 1) * θ) ≤ Real.sin (d * θ) := by
    have e : Real.sin ((d + 1) * θ) - Real.sin (d * θ) = 2 * Real.sin (θ / 2) * Real.cos ((2 * d + 1) * θ / 2) := by
      rw [Real.sin_sub_sin]; ring_nf
    have a1 : 0 ≤ Real.sin (θ / 2) := Real.sin_nonneg_of_nonneg_of_le_pi (by linarith) (by nlinarith)
    have a2 : Real.cos ((2 * d + 1) * θ / 2) ≤ 0 := Real.cos_nonpos_of_pi_div_two_le_of_le (by nlinarith) (by nlinarith)
    nlinarith
  set S := Real.sin ((d + 1) * θ) with hSdef
  set r := Real.sin (d * θ) / S with hr
  have hr1 : 1 ≤ r := by rw [hr, le_div_iff₀ hS]; linarith
  have hg' : r ^ d * (Real.sin θ / S) = g := by
    have : Real.sin (d * θ) ^ d * Real.sin θ = g * S ^ (d + 1) := by
      have : H θ = 0 := h0
      simp only [H] at this
      linarith
    rw [hr, div_pow, div_mul_div_comm, this, ← pow_succ]
    field_simp
  refine ⟨(r : ℂ) * Complex.exp (θ * Complex.I), ?_, ?_⟩
  · rw [norm_mul, Complex.norm_exp_ofReal_mul_I, mul_one, Complex.norm_real, Real.norm_of_nonneg (by linarith)]
    exact hr1
  · have hSc : (S : ℂ) ≠ 0 := by exact_mod_cast hS.ne'
    have hm : (r : ℂ) * Complex.exp (θ * Complex.I) - 1 = -((Real.sin θ / S : ℝ) : ℂ) * Complex.exp (-((d * θ : ℝ) : ℂ) * Complex.I) := by
      have hsin : S = Real.sin (d * θ) * Real.cos θ + Real.cos (d * θ) * Real.sin θ := by
        rw [hSdef, add_mul, one_mul, Real.sin_add]
      have hr' : (r : ℂ) = ((Real.sin (d * θ) : ℝ) : ℂ) / (S : ℂ) := by rw [hr]; push_cast; rfl
      rw [hr', Complex.exp_mul_I, Complex.exp_mul_I, Complex.cos_neg, Complex.sin_neg, ← Complex.ofReal_cos, ← Complex.ofReal_sin, ← Complex.ofReal_cos, ← Complex.ofReal_sin]
      have hsc : (S : ℂ) = (Real.sin (d * θ) : ℝ) * (Real.cos θ : ℝ) + (Real.cos (d * θ) : ℝ) * (Real.sin θ : ℝ) := by
        rw [← Complex.ofReal_mul, ← Complex.ofReal_mul, ← Complex.ofReal_add, ← hsin]
      push_cast
      field_simp
      rw [hsc]
      push_cast
      ring
    rw [hm, mul_pow, ← Complex.exp_nat_mul]
    rw [show (r : ℂ) ^ d * Complex.exp ((d : ℂ) * (θ * Complex.I)) * (-((Real.sin θ / S : ℝ) : ℂ) * Complex.exp (-((d * θ : ℝ) : ℂ) * Complex.I)) =
      -((r ^ d * (Real.sin θ / S) : ℝ) : ℂ) * (Complex.exp ((d : ℂ) * (θ * Complex.I)) * Complex.exp (-((d * θ : ℝ) : ℂ) * Complex.I)) by push_cast; ring]
    rw [← Complex.exp_add, hg']
    rw [show (d : ℂ) * (θ * Complex.I) + -((d * θ : ℝ) : ℂ) * Complex.I = 0 by push_cast; ring, Complex.exp_zero, mul_one]

/-- A gain that is not positive has one, too. -/
theorem exists_root_nonpos (d : ℕ) (g : ℝ) (hg : g ≤ 0) : ∃ z : ℂ, 1 ≤ ‖z‖ ∧ z ^ d * (z - 1) = -(g : ℂ) := by
  let H : ℝ → ℝ := fun x => x ^ d * (x - 1)
  have hcont : ContinuousOn H (Set.Icc 1 (1 - g)) := by
    apply Continuous.continuousOn
    fun_prop
  have hright : -g ≤ H (1 - g) := by
    have : 1 ≤ (1 - g) ^ d := one_le_pow₀ (by linarith)
    simp only [H]
    nlinarith
  obtain ⟨x, ⟨h1, _⟩, h0⟩ := intermediate_value_Icc (by linarith : (1 : ℝ) ≤ 1 - g) hcont ⟨by simp only [H]; simpa using hg, hright⟩
  refine ⟨(x : ℂ), by rw [Complex.norm_real, Real.norm_of_nonneg (by linarith)]; exact h1, ?_⟩
  have : x ^ d * (x - 1) = -g := h0
  exact_mod_cast this

/-! ### Solutions -/

/-- With a root outside, a solution that is constant at first does not go away. -/
theorem not_tendsto (d : ℕ) (g a : ℝ) (ha : a ≠ 0) (f : ℕ → ℝ) (hinit : ∀ n, n ≤ d → f n = a) (hrec : ∀ n, f (n + d + 1) = f (n + d) - g * f n) (z : ℂ) (hz : 1 ≤ ‖z‖) (h : z ^ d * (z - 1) = -(g : ℂ)) : ¬ Tendsto f atTop (𝓝 0) := by
  intro hlim
  let L : ℕ → ℂ := fun n => (f (n + d) : ℂ) + (z - 1) * ∑ i ∈ Finset.range d, z ^ (d - 1 - i) * (f (n + i) : ℂ)
  have hstep : ∀ n, L (n + 1) = z * L n := by
    intro n
    simp only [L]
    rw [show n + 1 + d = n + d + 1 by omega, hrec]
    cases d with
    | zero =>
      simp only [pow_zero, one_mul] at h
      simp only [Finset.range_zero, Finset.sum_empty, mul_zero, add_zero]
      push_cast
      linear_combination (-(f n : ℂ)) * h
    | succ d =>
      rw [Finset.sum_range_succ, Finset.sum_range_succ' (fun i => z ^ (d + 1 - 1 - i) * (f (n + i) : ℂ))]
      have e : ∀ i ∈ Finset.range d, z ^ (d + 1 - 1 - i) * (f (n + 1 + i) : ℂ) = z * (z ^ (d + 1 - 1 - (i + 1)) * (f (n + (i + 1)) : ℂ)) := by
        intro i hi
        have hi' := Finset.mem_range.mp hi
        rw [show d + 1 - 1 - i = (d + 1 - 1 - (i + 1)) + 1 by omega, pow_succ, show n + 1 + i = n + (i + 1) by omega]
        ring
      rw [Finset.sum_congr rfl e, ← Finset.mul_sum]
      simp only [Nat.add_sub_cancel, Nat.sub_self, pow_zero, one_mul, Nat.sub_zero, Nat.add_zero]
      rw [show n + 1 + d = n + (d + 1) by omega]
      push_cast
      have h' : z * (z ^ d * (z - 1)) = -(g : ℂ) := by rw [← h]; ring
      linear_combination (-(f n : ℂ)) * h'
  have hL0 : L 0 = (a : ℂ) * z ^ d := by
    simp only [L, Nat.zero_add]
    rw [hinit d (le_refl d), Finset.sum_congr rfl fun i hi => by rw [hinit i (Finset.mem_range.mp hi).le], ← Finset.sum_mul, Finset.sum_range_reflect (fun i => z ^ i) d]
    have := mul_geom_sum z d
    linear_combination (a : ℂ) * this
  have hLn : ∀ n, L n = z ^ n * L 0 := by
    intro n
    induction n with
    | zero => simp
    | succ n ih => rw [hstep, ih, pow_succ]; ring
  have hbound : ∀ n, |a| ≤ ‖L n‖ := by
    intro n
    rw [hLn, hL0, norm_mul, norm_pow, norm_mul, norm_pow, Complex.norm_real, Real.norm_eq_abs]
    have h1 : 1 ≤ ‖z‖ ^ n := one_le_pow₀ hz
    have h2 : 1 ≤ ‖z‖ ^ d := one_le_pow₀ hz
    have h3 := abs_nonneg a
    nlinarith [mul_nonneg h3 (by linarith : 0 ≤ ‖z‖ ^ d - 1), mul_nonneg (mul_nonneg h3 (by linarith : 0 ≤ ‖z‖ ^ d)) (by linarith : 0 ≤ ‖z‖ ^ n - 1)]
  have hc : ∀ i, Tendsto (fun n => (f (n + i) : ℂ)) atTop (𝓝 0) := fun i => by
    have := (Complex.continuous_ofReal.tendsto 0).comp ((tendsto_add_atTop_iff_nat i).mpr hlim)
    simpa [Function.comp_def] using this
  have hLlim : Tendsto L atTop (𝓝 0) := by
    have hs : Tendsto (fun n => ∑ i ∈ Finset.range d, z ^ (d - 1 - i) * (f (n + i) : ℂ)) atTop (𝓝 (∑ i ∈ Finset.range d, z ^ (d - 1 - i) * 0)) :=
      tendsto_finsetSum _ fun i _ => (hc i).const_mul _
    have := (hc d).add (hs.const_mul (z - 1))
    simpa [L] using this
  have := hLlim.norm
  rw [norm_zero] at this
  have habs : 0 < |a| := abs_pos.mpr ha
  obtain ⟨n, hn⟩ := ((tendsto_order.mp this).2 |a| habs).exists
  linarith [hbound n]

/-- One step of all the values that matter. -/
def step (d : ℕ) (g : ℝ) : (Fin (d + 1) → ℂ) →ₗ[ℂ] (Fin (d + 1) → ℂ) where
  toFun v i := if h : i.val < d then v ⟨i.val + 1, by omega⟩ else v (Fin.last d) - g * v 0
  map_add' v w := by
    funext i
    by_cases h : i.val < d
    · simp [h]
    · simp [h]; ring
  map_smul' c v := by
    funext i
    by_cases h : i.val < d
    · simp [h]
    · simp [h]; ring

/-- Its eigenvalues are roots. -/
theorem step_eigen (d : ℕ) (g : ℝ) (z : ℂ) (h : Module.End.HasEigenvalue (step d g) z) : z ^ d * (z - 1) = -(g : ℂ) := by
  obtain ⟨v, hv⟩ := h.exists_hasEigenvector
  have hv0 := hv.2
  have hs : step d g v = z • v := hv.apply_eq_smul
  have hcomp : ∀ i (hi : i < d + 1), v ⟨i, hi⟩ = z ^ i * v 0 := by
    intro i
    induction i with
    | zero => intro hi; simp
    | succ i ih =>
      intro hi
      have := congrFun hs ⟨i, by omega⟩
      simp only [step, LinearMap.coe_mk, AddHom.coe_mk, Pi.smul_apply, smul_eq_mul] at this
      rw [dif_pos (by simpa using (by omega : i < d))] at this
      rw [this, ih (by omega), pow_succ]; ring
  have hne : v 0 ≠ 0 := by
    intro h0
    apply hv0
    funext i
    have := hcomp i.val i.isLt
    rw [h0, mul_zero] at this
    exact this
  have hl := congrFun hs (Fin.last d)
  simp only [step, LinearMap.coe_mk, AddHom.coe_mk, Pi.smul_apply, smul_eq_mul, Fin.val_last, lt_irrefl, dite_false] at hl
  have hd' : v (Fin.last d) = z ^ d * v 0 := hcomp d (by omega)
  rw [hd'] at hl
  have : (z ^ d * (z - 1) + (g : ℂ)) * v 0 = 0 := by linear_combination (-1 : ℂ) * hl
  rcases mul_eq_zero.mp this with h' | h'
  · linear_combination h'
  · exact absurd h' hne

/-- If all roots are inside the unit circle, every solution goes away. -/
theorem tendsto_of_roots (d : ℕ) (g : ℝ) (hroots : ∀ z : ℂ, z ^ d * (z - 1) = -(g : ℂ) → ‖z‖ < 1) (f : ℕ → ℝ) (hrec : ∀ n, f (n + d + 1) = f (n + d) - g * f n) : Tendsto f atTop (𝓝 0) := by
  let E := Fin (d + 1) → ℂ
  let T : E →L[ℂ] E := Module.End.toContinuousLinearMap E (step d g)
  have hspec : ∀ z ∈ spectrum ℂ T, ‖z‖₊ < 1 := by
    intro z hz
    have hz' : z ∈ spectrum ℂ (step d g) := by
      have := AlgEquiv.spectrum_eq (Module.End.toContinuousLinearMap E) (step d g)
      rwa [← this]
    have := hroots z (step_eigen d g z (Module.End.hasEigenvalue_iff_mem_spectrum.mpr hz'))
    exact_mod_cast this
  have hrad : spectralRadius ℂ T < 1 := by
    have := spectrum.spectralRadius_lt_of_forall_lt T hspec
    simpa using this
  obtain ⟨ρ, hρ1, hρ2⟩ := ENNReal.lt_iff_exists_nnreal_btwn.mp hrad
  have hρ : ρ < 1 := by exact_mod_cast hρ2
  have hev := (tendsto_order.mp (spectrum.pow_nnnorm_pow_one_div_tendsto_nhds_spectralRadius T)).2 _ hρ1
  have hbound : ∀ᶠ n : ℕ in atTop, ‖T ^ n‖ ≤ (ρ : ℝ) ^ n := by
    filter_upwards [hev, eventually_gt_atTop 0] with n hn hpos
    have hn0 : (n : ℝ) ≠ 0 := by exact_mod_cast hpos.ne'
    have h1 : ((‖T ^ n‖₊ : ENNReal) ^ (1 / n : ℝ)) ^ (n : ℝ) ≤ (ρ : ENNReal) ^ (n : ℝ) := ENNReal.rpow_le_rpow hn.le (by positivity)
    rw [← ENNReal.rpow_mul, one_div, inv_mul_cancel₀ hn0, ENNReal.rpow_one, ENNReal.rpow_natCast] at h1
    have h2 : ‖T ^ n‖₊ ≤ ρ ^ n := by exact_mod_cast h1
    exact_mod_cast h2
  let s : ℕ → E := fun n i => (f (n + i.val) : ℂ)
  have hs : ∀ n, s (n + 1) = T (s n) := by
    intro n
    funext i
    change _ = step d g (s n) i
    simp only [step, LinearMap.coe_mk, AddHom.coe_mk, s]
    by_cases h : i.val < d
    · rw [dif_pos h]; congr 2; omega
    · have hi : i.val = d := by omega
      rw [dif_neg h, hi, show n + 1 + d = n + d + 1 by omega, hrec]
      simp
  have hsn : ∀ n, s n = (T ^ n) (s 0) := by
    intro n
    induction n with
    | zero => simp
    | succ n ih => rw [hs, ih, pow_succ']; rfl
  have hle : ∀ᶠ n : ℕ in atTop, ‖f n‖ ≤ (ρ : ℝ) ^ n * ‖s 0‖ := by
    filter_upwards [hbound] with n hn
    have h1 : ‖f n‖ ≤ ‖s n‖ := by
      have := norm_le_pi_norm (s n) 0
      simpa [s] using this
    refine h1.trans ?_
    rw [hsn]
    exact ((T ^ n).le_opNorm (s 0)).trans (mul_le_mul_of_nonneg_right hn (norm_nonneg _))
  have hpow : Tendsto (fun n : ℕ => (ρ : ℝ) ^ n * ‖s 0‖) atTop (𝓝 0) := by
    have := (tendsto_pow_atTop_nhds_zero_of_lt_one (by positivity : (0 : ℝ) ≤ ρ) (by exact_mod_cast hρ)).mul_const ‖s 0‖
    simpa using this
  exact squeeze_zero_norm' hle hpow

/-- A solution that is constant at first goes away exactly for gains between 0 and `limitGain`. -/
theorem tendsto_iff (d : ℕ) (g a : ℝ) (ha : a ≠ 0) (f : ℕ → ℝ) (hinit : ∀ n, n ≤ d → f n = a) (hrec : ∀ n, f (n + d + 1) = f (n + d) - g * f n) : Tendsto f atTop (𝓝 0) ↔ 0 < g ∧ g < limitGain d := by
  constructor
  · intro h
    refine ⟨?_, ?_⟩
    · by_contra hcon
      obtain ⟨z, h1, h2⟩ := exists_root_nonpos d g (not_lt.mp hcon)
      exact not_tendsto d g a ha f hinit hrec z h1 h2 h
    · by_contra hcon
      obtain ⟨z, h1, h2⟩ := exists_root d g (not_lt.mp hcon)
      exact not_tendsto d g a ha f hinit hrec z h1 h2 h
  · rintro ⟨h0, h1⟩
    refine tendsto_of_roots d g (fun z hz => ?_) f hrec
    by_contra hcon
    have := root_gain d g h0 z (not_lt.mp hcon) hz
    linarith

end Soapy.Stable
