/-
Mean and variance of Poisson distributed numbers, and the law of their sum.
-/
import Mathlib.Probability.Distributions.Poisson.Basic
import Mathlib.Probability.Distributions.Gaussian.Real
import Mathlib.Probability.Moments.Variance
import Mathlib.Probability.HasLaw

namespace Soapy.Lemmas

open MeasureTheory ProbabilityTheory Finset
open scoped NNReal Nat

theorem poisson_hasSum_one (r : ℝ≥0) : HasSum (fun n : ℕ => Real.exp (-r) * (r : ℝ) ^ n / n ! * n) r := by
  have h := (hasSum_one_poissonMeasure r).mul_left (r : ℝ)
  rw [mul_one] at h
  rw [← hasSum_nat_add_iff' 1]
  simp only [Finset.range_one, Finset.sum_singleton, CharP.cast_eq_zero, mul_zero, sub_zero]
  convert! h using 2 with n
  rw [Nat.factorial_succ]
  push_cast
  have : ((n : ℝ) + 1) ≠ 0 := by positivity
  have h2 : ((n !  : ℕ) : ℝ) ≠ 0 := by positivity
  field_simp
  ring

theorem poisson_hasSum_two (r : ℝ≥0) : HasSum (fun n : ℕ => Real.exp (-r) * (r : ℝ) ^ n / n ! * (n : ℝ) ^ 2) ((r : ℝ) ^ 2 + r) := by
  have h := ((hasSum_one_poissonMeasure r).mul_left (r : ℝ)).add ((poisson_hasSum_one r).mul_left (r : ℝ))
  rw [← hasSum_nat_add_iff' 1]
  simp only [Finset.range_one, Finset.sum_singleton, CharP.cast_eq_zero, ne_eq, OfNat.ofNat_ne_zero, not_false_eq_true, zero_pow, mul_zero, sub_zero]
  rw [show (r : ℝ) ^ 2 + r = r * 1 + r * r by ring]
  convert! h using 2 with n
  rw [Nat.factorial_succ]
  push_cast
  have : ((n : ℝ) + 1) ≠ 0 := by positivity
  have h2 : ((n !  : ℕ) : ℝ) ≠ 0 := by positivity
  field_simp
  ring

variable {Ω : Type*} {mΩ : MeasurableSpace Ω} {P : Measure Ω}

/-- Mean of a Poisson distributed number. -/
theorem poisson_mean {X : Ω → ℕ} {r : ℝ≥0} (h : HasLaw X (poissonMeasure r) P) : ∫ ω, (X ω : ℝ) ∂P = r := by
  have e := h.integral_comp (f := fun n : ℕ => (n : ℝ)) (by fun_prop)
  simp only [Function.comp_def] at e
  rw [e, integral_poissonMeasure]
  simp only [smul_eq_mul]
  exact (poisson_hasSum_one r).tsum_eq

theorem poisson_memLp {X : Ω → ℕ} {r : ℝ≥0} (h : HasLaw X (poissonMeasure r) P) : MemLp (fun ω => (X ω : ℝ)) 2 P := by
  have hm : AEMeasurable X P := h.aemeasurable
  have m : MemLp (fun n : ℕ => (n : ℝ)) 2 (poissonMeasure r) := by
    rw [memLp_two_iff_integrable_sq (by fun_prop), integrable_poissonMeasure_iff]
    refine (poisson_hasSum_two r).summable.congr fun n => ?_
    rw [Real.norm_eq_abs, abs_of_nonneg (sq_nonneg _)]
  rw [← h.map_eq] at m
  exact m.comp_of_map hm

/-- Variance of a Poisson distributed number. -/
theorem poisson_variance {X : Ω → ℕ} {r : ℝ≥0} (h : HasLaw X (poissonMeasure r) P) : Var[fun ω => (X ω : ℝ); P] = r := by
  have : IsProbabilityMeasure P := h.isProbabilityMeasure
  rw [variance_eq_sub (poisson_memLp h), poisson_mean h]
  have e := h.integral_comp (f := fun n : ℕ => (n : ℝ) ^ 2) (by fun_prop)
  simp only [Function.comp_def] at e
  simp only [Pi.pow_apply]
  rw [e, integral_poissonMeasure]
  simp only [smul_eq_mul]
  rw [(poisson_hasSum_two r).tsum_eq]
  ring

theorem poisson_sum {ι : Type*} {X : ι → Ω → ℕ} {r : ι → ℝ≥0} [IsProbabilityMeasure P] (h : ∀ i, HasLaw (X i) (poissonMeasure (r i)) P) (hi : iIndepFun X P) (s : Finset ι) :
    HasLaw (∑ i ∈ s, X i) (poissonMeasure (∑ i ∈ s, r i)) P := by
  classical
  induction s using Finset.induction_on with
  | empty =>
    simp only [Finset.sum_empty]
    have e : poissonMeasure 0 = Measure.dirac 0 := by
      apply Measure.ext_of_singleton
      intro n
      rw [poissonMeasure_singleton]
      cases n <;> simp
    rw [e]
    exact hasLaw_dirac_of_ae_eq (Filter.EventuallyEq.refl _ _)
  | insert a s ha ih =>
    rw [Finset.sum_insert ha, Finset.sum_insert ha]
    exact (hi.indepFun_finsetSum_of_notMem₀ (fun i => (h i).aemeasurable) ha).symm.hasLaw_add_poissonMeasure (h a) ih

end Soapy.Lemmas
