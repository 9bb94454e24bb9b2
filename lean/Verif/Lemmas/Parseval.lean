/-
Orthogonality of the Fourier factors and Parseval's theorem for the sums used in the image models.
-/
import Verif.Model.Psf
import Mathlib.Analysis.SpecialFunctions.Complex.Log

namespace Soapy.Lemmas

open Soapy.Spot Soapy.Psf Finset

theorem cis_add' (a b : ℝ) : cis (a + b) = cis a * cis b := by
  simp [cis, add_mul, Complex.exp_add]

theorem cis_zero' : cis 0 = 1 := by simp [cis]

theorem cis_conj' (a : ℝ) : (starRingEnd ℂ) (cis a) = cis (-a) := by
  rw [cis, cis, ← Complex.exp_conj]; simp

theorem cis_norm' (a : ℝ) : ‖cis a‖ = 1 := by
  rw [cis, Complex.norm_exp_ofReal_mul_I]

theorem cis_normSq' (a : ℝ) : Complex.normSq (cis a) = 1 := by
  rw [Complex.normSq_eq_norm_sq, cis_norm']; norm_num

theorem cis_int' (m : ℤ) : cis (2 * Real.pi * m) = 1 := by
  rw [cis]
  push_cast
  rw [show (2 * (Real.pi : ℂ) * (m : ℂ) * Complex.I) = m * (2 * Real.pi * Complex.I) by ring]
  exact Complex.exp_int_mul_two_pi_mul_I m

theorem cis_pow' (a : ℝ) (n : ℕ) : cis a ^ n = cis (n * a) := by
  rw [cis, cis, ← Complex.exp_nat_mul]; congr 1; push_cast; ring

theorem cis_ne_one (N : ℕ) (hN : 0 < N) (d : ℤ) (h : ¬ (N : ℤ) ∣ d) : cis (2 * Real.pi * d / N) ≠ 1 := by
  intro e
  unfold cis at e
  rw [Complex.exp_eq_one_iff] at e
  obtain ⟨n, hn⟩ := e
  apply h
  refine ⟨n, ?_⟩
  have hpi : (Real.pi : ℂ) ≠ 0 := by exact_mod_cast Real.pi_ne_zero
  have hN' : (N : ℂ) ≠ 0 := by exact_mod_cast hN.ne'
  push_cast at hn
  have h2 : (d : ℂ) = N * n := by
    have := Complex.I_ne_zero
    field_simp at hn
    linear_combination hn
  exact_mod_cast h2

theorem orth (N : ℕ) (hN : 0 < N) (d : ℤ) (h : ¬ (N : ℤ) ∣ d) : ∑ u ∈ range N, cis (u * (2 * Real.pi * d / N)) = 0 := by
  have h1 := cis_ne_one N hN d h
  have hN' : (N : ℝ) ≠ 0 := by positivity
  have e : ∑ u ∈ range N, cis (u * (2 * Real.pi * d / N)) = ∑ u ∈ range N, cis (2 * Real.pi * d / N) ^ u :=
    sum_congr rfl fun u _ => (cis_pow' _ _).symm
  have hg := mul_neg_geom_sum (cis (2 * Real.pi * d / N)) N
  rw [cis_pow', show (N : ℝ) * (2 * Real.pi * d / N) = 2 * Real.pi * d by field_simp, cis_int', sub_self] at hg
  rw [e]
  rcases mul_eq_zero.mp hg with h0 | h0
  · exact absurd (sub_eq_zero.mp h0).symm h1
  · exact h0

theorem normSq_sum (n : ℕ) (g : ℕ → ℂ) : (Complex.normSq (∑ j ∈ range n, g j) : ℂ) = ∑ j ∈ range n, ∑ k ∈ range n, g j * (starRingEnd ℂ) (g k) := by
  rw [← Complex.mul_conj, map_sum, sum_mul_sum]

/-- Parseval's theorem in one dimension: `n ≤ N` samples padded to `N`. -/
theorem parseval1 (N n : ℕ) (hN : 0 < N) (hn : n ≤ N) (g : ℕ → ℂ) (s : ℝ) (hs : s = 1 ∨ s = -1) :
    ∑ u ∈ range N, Complex.normSq (∑ j ∈ range n, g j * cis (s * (2 * Real.pi * ((u : ℝ) * j) / N))) = N * ∑ j ∈ range n, Complex.normSq (g j) := by
  have hN' : (N : ℝ) ≠ 0 := by positivity
  have key : ((∑ u ∈ range N, Complex.normSq (∑ j ∈ range n, g j * cis (s * (2 * Real.pi * ((u : ℝ) * j) / N))) : ℝ) : ℂ) = ((N * ∑ j ∈ range n, Complex.normSq (g j) : ℝ) : ℂ) := by
    rw [Complex.ofReal_sum]
    simp only [normSq_sum, map_mul, cis_conj']
    rw [sum_comm]
    have inner : ∀ j ∈ range n, ∑ u ∈ range N, ∑ k ∈ range n, g j * cis (s * (2 * Real.pi * ((u : ℝ) * j) / N)) * ((starRingEnd ℂ) (g k) * cis (-(s * (2 * Real.pi * ((u : ℝ) * k) / N))))
        = (N : ℂ) * Complex.normSq (g j) := by
      intro j hj
      rw [sum_comm]
      have hk : ∀ k ∈ range n, ∑ u ∈ range N, g j * cis (s * (2 * Real.pi * ((u : ℝ) * j) / N)) * ((starRingEnd ℂ) (g k) * cis (-(s * (2 * Real.pi * ((u : ℝ) * k) / N))))
          = if k = j then (N : ℂ) * Complex.normSq (g j) else 0 := by
        intro k hk
        obtain ⟨d, hd⟩ : ∃ d : ℤ, (d : ℝ) = s * ((j : ℝ) - k) ∧ (k ≠ j → ¬ (N : ℤ) ∣ d) := by
          have hj' := mem_range.mp hj
          have hk' := mem_range.mp hk
          rcases hs with rfl | rfl
          · refine ⟨(j : ℤ) - k, by push_cast; ring, fun hne hdvd => ?_⟩
            have := Int.eq_zero_of_abs_lt_dvd hdvd (by rw [abs_lt]; omega)
            omega
          · refine ⟨(k : ℤ) - j, by push_cast; ring, fun hne hdvd => ?_⟩
            have := Int.eq_zero_of_abs_lt_dvd hdvd (by rw [abs_lt]; omega)
            omega
        have e : ∀ u ∈ range N, g j * cis (s * (2 * Real.pi * ((u : ℝ) * j) / N)) * ((starRingEnd ℂ) (g k) * cis (-(s * (2 * Real.pi * ((u : ℝ) * k) / N))))
            = g j * (starRingEnd ℂ) (g k) * cis (u * (2 * Real.pi * d / N)) := by
          intro u _
          rw [hd.1, show (u : ℝ) * (2 * Real.pi * (s * ((j : ℝ) - k)) / N) = s * (2 * Real.pi * ((u : ℝ) * j) / N) + -(s * (2 * Real.pi * ((u : ℝ) * k) / N)) by ring, cis_add']
          ring
        rw [sum_congr rfl e, ← mul_sum]
        by_cases hkj : k = j
        · subst hkj
          have hd0 : (d : ℝ) = 0 := by rw [hd.1, sub_self, mul_zero]
          simp only [hd0, mul_zero, zero_div, cis_zero', sum_const, card_range, nsmul_eq_mul, mul_one, if_true]
          rw [Complex.mul_conj]; ring
        · rw [orth N hN d (hd.2 hkj), mul_zero, if_neg hkj]
      rw [sum_congr rfl hk, sum_ite_eq' (range n) j, if_pos hj]
    rw [sum_congr rfl inner, ← mul_sum]
    push_cast; rfl
  exact_mod_cast key

/-- Parseval's theorem in two dimensions. -/
theorem parseval2 (N n : ℕ) (hN : 0 < N) (hn : n ≤ N) (e : ℕ → ℕ → ℂ) (s : ℝ) (hs : s = 1 ∨ s = -1) :
    ∑ u ∈ range N, ∑ v ∈ range N, Complex.normSq (∑ j ∈ range n, ∑ k ∈ range n, e j k * cis (s * (2 * Real.pi * ((u : ℝ) * j + (v : ℝ) * k) / N)))
      = (N : ℝ) ^ 2 * ∑ j ∈ range n, ∑ k ∈ range n, Complex.normSq (e j k) := by
  have split : ∀ u v : ℕ, ∑ j ∈ range n, ∑ k ∈ range n, e j k * cis (s * (2 * Real.pi * ((u : ℝ) * j + (v : ℝ) * k) / N))
      = ∑ j ∈ range n, (∑ k ∈ range n, e j k * cis (s * (2 * Real.pi * ((v : ℝ) * k) / N))) * cis (s * (2 * Real.pi * ((u : ℝ) * j) / N)) := by
    intro u v
    refine sum_congr rfl fun j _ => ?_
    rw [sum_mul]
    refine sum_congr rfl fun k _ => ?_
    rw [show s * (2 * Real.pi * ((u : ℝ) * j + (v : ℝ) * k) / N) = s * (2 * Real.pi * ((v : ℝ) * k) / N) + s * (2 * Real.pi * ((u : ℝ) * j) / N) by ring, cis_add']
    ring
  simp only [split]
  rw [sum_comm]
  have h1 : ∀ v ∈ range N, ∑ u ∈ range N, Complex.normSq (∑ j ∈ range n, (∑ k ∈ range n, e j k * cis (s * (2 * Real.pi * ((v : ℝ) * k) / N))) * cis (s * (2 * Real.pi * ((u : ℝ) * j) / N)))
      = N * ∑ j ∈ range n, Complex.normSq (∑ k ∈ range n, e j k * cis (s * (2 * Real.pi * ((v : ℝ) * k) / N))) := fun v _ =>
    parseval1 N n hN hn (fun j => ∑ k ∈ range n, e j k * cis (s * (2 * Real.pi * ((v : ℝ) * k) / N))) s hs
  rw [sum_congr rfl h1, ← mul_sum, sum_comm]
  have h2 : ∀ j ∈ range n, ∑ v ∈ range N, Complex.normSq (∑ k ∈ range n, e j k * cis (s * (2 * Real.pi * ((v : ℝ) * k) / N))) = N * ∑ k ∈ range n, Complex.normSq (e j k) := fun j _ =>
    parseval1 N n hN hn (e j) s hs
  rw [sum_congr rfl h2, ← mul_sum]; ring

/-! ### Rearranging sums over images -/

theorem sum_perm2 (N : ℕ) (f : ℕ × ℕ → ℝ) (σ τ : ℕ × ℕ → ℕ × ℕ) (h1 : ∀ p ∈ range N ×ˢ range N, σ p ∈ range N ×ˢ range N) (h2 : ∀ p ∈ range N ×ˢ range N, τ p ∈ range N ×ˢ range N)
    (h3 : ∀ p ∈ range N ×ˢ range N, τ (σ p) = p) (h4 : ∀ p ∈ range N ×ˢ range N, σ (τ p) = p) :
    ∑ i ∈ range N, ∑ j ∈ range N, f (σ (i, j)) = ∑ i ∈ range N, ∑ j ∈ range N, f (i, j) := by
  rw [← sum_product' (range N) (range N) (fun i j => f (σ (i, j))), ← sum_product' (range N) (range N) (fun i j => f (i, j))]
  exact sum_nbij' σ τ h1 h2 h3 h4 (fun p _ => rfl)

theorem sum_window (N n o : ℕ) (h : o + n ≤ N) (f : ℕ → ℝ) :
    ∑ i ∈ range N, (if o ≤ i ∧ i < o + n then f (i - o) else 0) = ∑ i ∈ range n, f i := by
  obtain ⟨r, rfl⟩ := Nat.exists_eq_add_of_le h
  rw [sum_range_add, sum_range_add]
  have a : ∑ x ∈ range o, (if o ≤ x ∧ x < o + n then f (x - o) else 0) = 0 := by
    refine sum_eq_zero fun x hx => if_neg ?_
    have := mem_range.mp hx; omega
  have b : ∑ x ∈ range n, (if o ≤ o + x ∧ o + x < o + n then f (o + x - o) else 0) = ∑ i ∈ range n, f i := by
    refine sum_congr rfl fun x hx => ?_
    have := mem_range.mp hx
    rw [if_pos (by omega)]; congr 1; omega
  have c : ∑ x ∈ range r, (if o ≤ o + n + x ∧ o + n + x < o + n then f (o + n + x - o) else 0) = 0 :=
    sum_eq_zero fun x _ => if_neg (by omega)
  rw [a, b, c]; ring

/-- Binning moves the light, it does not change its amount. -/
theorem sum_binned (P b : ℕ) (img : ℕ → ℕ → ℝ) : ∑ i ∈ range P, ∑ j ∈ range P, binned b img i j = ∑ p ∈ range (P * b), ∑ q ∈ range (P * b), img p q := by
  have one : ∀ (P : ℕ) (f : ℕ → ℝ), ∑ i ∈ range P, ∑ x ∈ range b, f (x + i * b) = ∑ p ∈ range (P * b), f p := by
    intro P f
    induction P with
    | zero => simp
    | succ P ih =>
      rw [sum_range_succ, ih, Nat.succ_mul, sum_range_add]
      congr 1
      exact sum_congr rfl fun x _ => by rw [add_comm]
  unfold binned
  have h1 : ∀ i ∈ range P, ∑ j ∈ range P, ∑ x ∈ range b, ∑ y ∈ range b, img (x + i * b) (y + j * b) = ∑ x ∈ range b, ∑ q ∈ range (P * b), img (x + i * b) q := by
    intro i _
    rw [sum_comm]
    exact sum_congr rfl fun x _ => one P fun q => img (x + i * b) q
  rw [sum_congr rfl h1]
  exact one P fun p => ∑ q ∈ range (P * b), img p q

end Soapy.Lemmas
