/-
C101: coupling into a single-mode fibre.
-/
import Verif.Model.Fibre
import Verif.Lemmas.Parseval
import Mathlib.Algebra.BigOperators.Field

namespace Soapy.Props

open Soapy.Fibre Soapy.Spot Soapy.Lemmas Finset

/-- The sum of an array as one sum over pairs. -/
theorem total_prod {M : Type} [AddCommMonoid M] (n : ℕ) (f : ℕ → ℕ → M) : total n f = ∑ p ∈ range n ×ˢ range n, f p.1 p.2 := by
  rw [total, sum_product]

theorem gauss_pos (n : ℕ) (w : ℝ) (i j : ℕ) : 0 < gauss n w i j := Real.exp_pos _

theorem gauss_shift (n : ℕ) (w : ℝ) (i j : ℕ) : gauss (3 * n) w (i + n) (j + n) = gauss n w i j := by
  unfold gauss
  congr 1
  push_cast
  ring

/-- The fibre's light on the small array is part of that on the large one. -/
theorem gauss_le (n : ℕ) (w : ℝ) : (total n fun a b => |gauss n w a b| ^ 2) ≤ total (3 * n) fun a b => |gauss (3 * n) w a b| ^ 2 := by
  rw [total_prod, total_prod]
  have e : ∑ p ∈ range n ×ˢ range n, |gauss n w p.1 p.2| ^ 2 = ∑ p ∈ (range n ×ˢ range n).image (fun p : ℕ × ℕ => (p.1 + n, p.2 + n)), |gauss (3 * n) w p.1 p.2| ^ 2 := by
    rw [sum_image]
    · exact sum_congr rfl fun p _ => by rw [gauss_shift]
    · intro p _ q _ h
      simp only [Prod.mk.injEq, Nat.add_right_cancel_iff] at h
      exact Prod.ext h.1 h.2
  rw [e]
  apply sum_le_sum_of_subset_of_nonneg
  · intro p hp
    simp only [mem_image, mem_product, mem_range] at hp ⊢
    obtain ⟨q, ⟨h1, h2⟩, rfl⟩ := hp
    exact ⟨by simp only; omega, by simp only; omega⟩
  · intros; positivity

theorem fibre_pos (n : ℕ) (hn : 0 < n) (w : ℝ) (i j : ℕ) : 0 < fibreField n w i j := by
  unfold fibreField
  apply div_pos (gauss_pos _ _ _ _)
  apply Real.sqrt_pos.mpr
  rw [total_prod]
  apply sum_pos
  · intro p _; have := gauss_pos (3 * n) w p.1 p.2; positivity
  · exact ⟨(0, 0), by simp [hn]⟩

/-- The fibre's field has at most unit power on the array. -/
theorem fibre_sq (n : ℕ) (hn : 0 < n) (w : ℝ) : ∑ p ∈ range n ×ˢ range n, fibreField n w p.1 p.2 ^ 2 ≤ 1 := by
  have hp : 0 < total (3 * n) fun a b => |gauss (3 * n) w a b| ^ 2 := by
    rw [total_prod]
    apply sum_pos
    · intro p _; have := gauss_pos (3 * n) w p.1 p.2; positivity
    · exact ⟨(0, 0), by simp [hn]⟩
  simp only [fibreField, div_pow, Real.sq_sqrt hp.le]
  rw [← sum_div, div_le_one hp]
  have := gauss_le n w
  rw [total_prod n] at this
  simpa only [sq_abs] using this

/-- The mask has unit power. -/
theorem normMask_sq (n : ℕ) (m : ℕ → ℕ → ℝ) (hm : ∃ i < n, ∃ j < n, m i j ≠ 0) : ∑ p ∈ range n ×ˢ range n, normMask n m p.1 p.2 ^ 2 = 1 := by
  have hp : 0 < total n fun a b => |m a b| ^ 2 := by
    obtain ⟨i, hi, j, hj, h⟩ := hm
    rw [total_prod]
    apply sum_pos' (fun p _ => by positivity)
    exact ⟨(i, j), by simp [hi, hj], by simp only; positivity⟩
  simp only [normMask, div_pow, Real.sq_sqrt hp.le]
  rw [← sum_div, div_eq_one_iff_eq hp.ne', total_prod]
  simp only [sq_abs]

/-- The overlap that `instStrehl` is the square of. -/
theorem overlap_le (n : ℕ) (m : ℕ → ℕ → ℝ) (w : ℝ) (e : ℕ → ℕ → ℂ) (he : ∀ i < n, ∀ j < n, ‖e i j‖ ≤ 1) :
    ‖total n fun i j => (fibreField n w i j : ℂ) * e i j * (normMask n m i j : ℂ)‖ ≤ ∑ p ∈ range n ×ˢ range n, |fibreField n w p.1 p.2| * |normMask n m p.1 p.2| := by
  rw [total_prod]
  refine (norm_sum_le _ _).trans (sum_le_sum fun p hp => ?_)
  simp only [mem_product, mem_range] at hp
  rw [norm_mul, norm_mul, Complex.norm_real, Complex.norm_real, Real.norm_eq_abs, Real.norm_eq_abs]
  have h1 := he p.1 hp.1 p.2 hp.2
  have h2 : |fibreField n w p.1 p.2| * ‖e p.1 p.2‖ ≤ |fibreField n w p.1 p.2| := mul_le_of_le_one_right (abs_nonneg _) h1
  exact mul_le_mul_of_nonneg_right h2 (abs_nonneg _)

/-- **C101 (range).** For every mask, fibre and field that is nowhere brighter than the incoming light, the coupling reported lies between 0 and 1. -/
theorem C101_range (n : ℕ) (m : ℕ → ℕ → ℝ) (hm : ∃ i < n, ∃ j < n, m i j ≠ 0) (w : ℝ) (e : ℕ → ℕ → ℂ) (he : ∀ i < n, ∀ j < n, ‖e i j‖ ≤ 1) : 0 ≤ instStrehl n m w e ∧ instStrehl n m w e ≤ 1 := by
  have hn : 0 < n := by obtain ⟨i, hi, _⟩ := hm; omega
  refine ⟨by unfold instStrehl; positivity, ?_⟩
  have h1 := overlap_le n m w e he
  have h2 := sum_mul_sq_le_sq_mul_sq (range n ×ˢ range n) (fun p => |fibreField n w p.1 p.2|) (fun p => |normMask n m p.1 p.2|)
  simp only [sq_abs] at h2
  rw [normMask_sq n m hm, mul_one] at h2
  unfold instStrehl
  calc _ ≤ (∑ p ∈ range n ×ˢ range n, |fibreField n w p.1 p.2| * |normMask n m p.1 p.2|) ^ 2 := pow_le_pow_left₀ (norm_nonneg _) h1 2
    _ ≤ _ := h2
    _ ≤ 1 := fibre_sq n hn w

theorem normMask_nonneg (n : ℕ) (m : ℕ → ℕ → ℝ) (h0 : ∀ i < n, ∀ j < n, 0 ≤ m i j) (p : ℕ × ℕ) (hp : p ∈ range n ×ˢ range n) : 0 ≤ normMask n m p.1 p.2 := by
  simp only [mem_product, mem_range] at hp
  exact div_nonneg (h0 _ hp.1 _ hp.2) (Real.sqrt_nonneg _)

theorem flat_eq (n : ℕ) (hn : 0 < n) (m : ℕ → ℕ → ℝ) (h0 : ∀ i < n, ∀ j < n, 0 ≤ m i j) (w : ℝ) :
    ‖total n fun i j => (fibreField n w i j : ℂ) * 1 * (normMask n m i j : ℂ)‖ = ∑ p ∈ range n ×ˢ range n, |fibreField n w p.1 p.2| * |normMask n m p.1 p.2| := by
  rw [total_prod]
  have e : ∑ p ∈ range n ×ˢ range n, (fibreField n w p.1 p.2 : ℂ) * 1 * (normMask n m p.1 p.2 : ℂ) = ((∑ p ∈ range n ×ˢ range n, |fibreField n w p.1 p.2| * |normMask n m p.1 p.2| : ℝ) : ℂ) := by
    push_cast
    refine sum_congr rfl fun p hp => ?_
    rw [abs_of_pos (fibre_pos n hn w _ _), abs_of_nonneg (normMask_nonneg n m h0 p hp), mul_one]
  rw [e, Complex.norm_real, Real.norm_eq_abs, abs_of_nonneg]
  exact sum_nonneg fun p _ => by positivity

/-- **C101 (reference).** The reference printed when the fibre is made is what a flat wavefront couples. -/
theorem C101_reference (n : ℕ) (m : ℕ → ℕ → ℝ) (w : ℝ) : 1 - refCouplingLoss n m w = instStrehl n m w fun _ _ => 1 := by
  unfold refCouplingLoss instStrehl
  rw [sub_sub_cancel]
  have e : (total n fun i j => (fibreField n w i j : ℂ) * 1 * (normMask n m i j : ℂ)) = ((total n fun i j => fibreField n w i j * normMask n m i j : ℝ) : ℂ) := by
    simp [total]
  rw [e, Complex.norm_real, Real.norm_eq_abs]

/-- **C101 (nothing couples more than a flat wavefront).** -/
theorem C101_flat_is_best (n : ℕ) (hn : 0 < n) (m : ℕ → ℕ → ℝ) (h0 : ∀ i < n, ∀ j < n, 0 ≤ m i j) (w : ℝ) (e : ℕ → ℕ → ℂ) (he : ∀ i < n, ∀ j < n, ‖e i j‖ ≤ 1) :
    instStrehl n m w e ≤ 1 - refCouplingLoss n m w := by
  rw [C101_reference]
  unfold instStrehl
  rw [flat_eq n hn m h0 w]
  exact pow_le_pow_left₀ (norm_nonneg _) (overlap_le n m w e he) 2

/-- If a weighted sum of complex numbers of size at most one is as large as it can be, all with positive weight are equal, of size one. -/
theorem all_equal {ι : Type} (s : Finset ι) (a : ι → ℝ) (z : ι → ℂ) (ha : ∀ i ∈ s, 0 ≤ a i) (hz : ∀ i ∈ s, ‖z i‖ ≤ 1) (hA : 0 < ∑ i ∈ s, a i) (h : ‖∑ i ∈ s, (a i : ℂ) * z i‖ = ∑ i ∈ s, a i) :
    ∃ u : ℂ, ‖u‖ = 1 ∧ ∀ i ∈ s, a i ≠ 0 → z i = u := by
  set S := ∑ i ∈ s, (a i : ℂ) * z i with hS
  set A := ∑ i ∈ s, a i with hAdef
  have hA' : (A : ℂ) ≠ 0 := by exact_mod_cast hA.ne'
  have hu : ‖S / A‖ = 1 := by rw [norm_div, h, Complex.norm_real, Real.norm_eq_abs, abs_of_pos hA, div_self hA.ne']
  refine ⟨S / A, hu, fun i hi hai => ?_⟩
  set u := S / A with hudef
  have huu : (starRingEnd ℂ) u * u = 1 := by
    rw [mul_comm, Complex.mul_conj, Complex.normSq_eq_norm_sq, hu]; norm_num
  have hsum : ∑ i ∈ s, a i * (1 - ((starRingEnd ℂ) u * z i).re) = 0 := by
    have h1 : (starRingEnd ℂ) u * S = A := by
      have : S = u * A := by rw [hudef]; field_simp
      rw [this, ← mul_assoc, huu, one_mul]
    have h2 : ((starRingEnd ℂ) u * S).re = ∑ i ∈ s, a i * ((starRingEnd ℂ) u * z i).re := by
      rw [hS, mul_sum, Complex.re_sum]
      refine sum_congr rfl fun i _ => ?_
      rw [show (starRingEnd ℂ) u * ((a i : ℂ) * z i) = (a i : ℂ) * ((starRingEnd ℂ) u * z i) by ring, Complex.re_ofReal_mul]
    rw [h1, Complex.ofReal_re] at h2
    simp only [mul_sub, mul_one, sum_sub_distrib, ← h2, ← hAdef, sub_self]
  have hle : ∀ i ∈ s, ((starRingEnd ℂ) u * z i).re ≤ 1 := by
    intro i hi
    refine (Complex.re_le_norm _).trans ?_
    rw [norm_mul, RCLike.norm_conj, hu, one_mul]
    exact hz i hi
  have hz0 := (sum_eq_zero_iff_of_nonneg fun i hi => mul_nonneg (ha i hi) (by linarith [hle i hi])).mp hsum i hi
  have hre : ((starRingEnd ℂ) u * z i).re = 1 := by
    rcases mul_eq_zero.mp hz0 with h | h
    · exact absurd h hai
    · linarith
  have hn1 : ‖(starRingEnd ℂ) u * z i‖ ≤ 1 := by rw [norm_mul, RCLike.norm_conj, hu, one_mul]; exact hz i hi
  have hone : (starRingEnd ℂ) u * z i = 1 := by
    have hsq : Complex.normSq ((starRingEnd ℂ) u * z i) ≤ 1 := by
      rw [Complex.normSq_eq_norm_sq]; nlinarith [norm_nonneg ((starRingEnd ℂ) u * z i)]
    rw [Complex.normSq_apply, hre] at hsq
    apply Complex.ext
    · rw [hre]; rfl
    · have : ((starRingEnd ℂ) u * z i).im = 0 := by nlinarith [mul_self_nonneg ((starRingEnd ℂ) u * z i).im]
      rw [this]; rfl
  calc z i = ((starRingEnd ℂ) u * u) * z i := by rw [huu, one_mul]
    _ = u * ((starRingEnd ℂ) u * z i) := by ring
    _ = u := by rw [hone, mul_one]

/-- **C101 (the best is reached by flat wavefronts only).** With light in the pupil, the coupling is the reference if and only if the field is the same all over the pupil. -/
theorem C101_best_iff_flat (n : ℕ) (m : ℕ → ℕ → ℝ) (h0 : ∀ i < n, ∀ j < n, 0 ≤ m i j) (hm : ∃ i < n, ∃ j < n, m i j ≠ 0) (w : ℝ) (e : ℕ → ℕ → ℂ) (he : ∀ i < n, ∀ j < n, ‖e i j‖ ≤ 1) :
    instStrehl n m w e = 1 - refCouplingLoss n m w ↔ ∃ u : ℂ, ‖u‖ = 1 ∧ ∀ i < n, ∀ j < n, m i j ≠ 0 → e i j = u := by
  have hn : 0 < n := by obtain ⟨i, hi, _⟩ := hm; omega
  have hsq := normMask_sq n m hm
  rw [C101_reference]
  unfold instStrehl
  rw [sq_eq_sq₀ (norm_nonneg _) (norm_nonneg _)]
  have hz : ∀ p ∈ range n ×ˢ range n, normMask n m p.1 p.2 ≠ 0 ↔ m p.1 p.2 ≠ 0 := by
    intro p hp
    have hS : √(total n fun a b => |m a b| ^ 2) ≠ 0 := by
      intro h
      simp only [normMask, h, div_zero, ne_eq, OfNat.ofNat_ne_zero, not_false_eq_true, zero_pow, sum_const_zero, zero_ne_one] at hsq
    rw [normMask, ne_eq, div_eq_zero_iff, or_iff_left hS]
  constructor
  · intro h
    rw [flat_eq n hn m h0 w, total_prod] at h
    have e1 : ∑ p ∈ range n ×ˢ range n, (fibreField n w p.1 p.2 : ℂ) * e p.1 p.2 * (normMask n m p.1 p.2 : ℂ)
        = ∑ p ∈ range n ×ˢ range n, ((|fibreField n w p.1 p.2| * |normMask n m p.1 p.2| : ℝ) : ℂ) * e p.1 p.2 := by
      refine sum_congr rfl fun p hp => ?_
      rw [abs_of_pos (fibre_pos n hn w _ _), abs_of_nonneg (normMask_nonneg n m h0 p hp)]
      push_cast; ring
    rw [e1] at h
    have hA : 0 < ∑ p ∈ range n ×ˢ range n, |fibreField n w p.1 p.2| * |normMask n m p.1 p.2| := by
      obtain ⟨i, hi, j, hj, hij⟩ := hm
      have hp : ((i, j) : ℕ × ℕ) ∈ range n ×ˢ range n := by simp [hi, hj]
      apply sum_pos' (fun p _ => by positivity)
      refine ⟨(i, j), hp, ?_⟩
      have h1 := fibre_pos n hn w i j
      have h2 := (hz (i, j) hp).mpr hij
      have h3 : 0 < |normMask n m i j| := abs_pos.mpr h2
      have h4 : 0 < |fibreField n w i j| := abs_pos.mpr h1.ne'
      positivity
    obtain ⟨u, hu, hall⟩ := all_equal (range n ×ˢ range n) (fun p => |fibreField n w p.1 p.2| * |normMask n m p.1 p.2|) (fun p => e p.1 p.2) (fun p _ => by positivity)
      (fun p hp => by simp only [mem_product, mem_range] at hp; exact he _ hp.1 _ hp.2) hA h
    refine ⟨u, hu, fun i hi j hj hij => ?_⟩
    have hp : ((i, j) : ℕ × ℕ) ∈ range n ×ˢ range n := by simp [hi, hj]
    refine hall (i, j) hp ?_
    have h1 := fibre_pos n hn w i j
    have h2 := (hz (i, j) hp).mpr hij
    exact mul_ne_zero (abs_pos.mpr h1.ne').ne' (abs_pos.mpr h2).ne'
  · rintro ⟨u, hu, hall⟩
    have e1 : (total n fun i j => (fibreField n w i j : ℂ) * e i j * (normMask n m i j : ℂ)) = u * total n fun i j => (fibreField n w i j : ℂ) * 1 * (normMask n m i j : ℂ) := by
      rw [total_prod, total_prod, mul_sum]
      refine sum_congr rfl fun p hp => ?_
      by_cases h : m p.1 p.2 = 0
      · simp [normMask, h]
      · simp only [mem_product, mem_range] at hp
        rw [hall _ hp.1 _ hp.2 h]; ring
    rw [e1, norm_mul, hu, one_mul]

/-- **C101 in the simulation**: with geometric propagation every turbulence and correction couples at most the reference, and exactly the reference when the correction is the turbulence up to a piston. -/
theorem C101_geometric (n : ℕ) (hn : 0 < n) (m : ℕ → ℕ → ℝ) (h0 : ∀ i < n, ∀ j < n, 0 ≤ m i j) (w : ℝ) (turb corr : ℕ → ℕ → ℝ) :
    instStrehl n m w (geoField turb corr) ≤ 1 - refCouplingLoss n m w ∧ ∀ c : ℝ, (∀ i j, turb i j = corr i j + c) → instStrehl n m w (geoField turb corr) = 1 - refCouplingLoss n m w := by
  constructor
  · refine C101_flat_is_best n hn m h0 w _ fun i _ j _ => ?_
    simp [geoField, cis_norm']
  · intro c hc
    rw [C101_reference]
    unfold instStrehl
    have e1 : (total n fun i j => (fibreField n w i j : ℂ) * geoField turb corr i j * (normMask n m i j : ℂ)) = cis c * total n fun i j => (fibreField n w i j : ℂ) * 1 * (normMask n m i j : ℂ) := by
      rw [total_prod, total_prod, mul_sum]
      refine sum_congr rfl fun p hp => ?_
      have : geoField turb corr p.1 p.2 = cis c := by
        rw [geoField, one_mul, ← cis_add', hc, show corr p.1 p.2 + c + -corr p.1 p.2 = c by ring]
      rw [this]; ring
    rw [e1, norm_mul, cis_norm', one_mul]

/-- **C101 is violated for the long exposure**: whatever the frames, a fibre reports a long-exposure value of 0. -/
theorem C101_violated (n : ℕ) (m : ℕ → ℕ → ℝ) (w : ℝ) (frames : List (ℕ → ℕ → ℂ)) : (frames.foldl (camFrame n m w) newCam).long = 0 := by
  have : ∀ c : Cam, c.long = 0 → (frames.foldl (camFrame n m w) c).long = 0 := by
    induction frames with
    | nil => intro c h; exact h
    | cons f fs ih => intro c h; exact ih _ h
  exact this _ rfl

/-- **C101 (instantaneous value).** Before the first frame a fibre reports 0, afterwards the coupling of the last frame. -/
theorem C101_last (n : ℕ) (m : ℕ → ℕ → ℝ) (w : ℝ) (frames : List (ℕ → ℕ → ℂ)) :
    (frames.foldl (camFrame n m w) newCam).inst = ((frames.getLast?).map (instStrehl n m w)).getD 0 := by
  rcases List.eq_nil_or_concat frames with rfl | ⟨fs, f, rfl⟩
  · rfl
  · simp [camFrame]

/-- **C101 (the fibre's mode).** The field of the fibre is a Gaussian of width `w` pixels, centred on the middle of the array: `x` pixels along and `y` across from there it is
`exp(-(x² + y²) / (2 w²))` of what it is in the middle. -/
theorem C101_mode (n : ℕ) (w : ℝ) (i j : ℕ) : fibreField (2 * n) w i j = fibreField (2 * n) w n n * Real.exp (-(((i : ℝ) - n) ^ 2 + ((j : ℝ) - n) ^ 2) / (2 * w ^ 2)) := by
  have e : gauss (2 * n) w i j = gauss (2 * n) w n n * Real.exp (-(((i : ℝ) - n) ^ 2 + ((j : ℝ) - n) ^ 2) / (2 * w ^ 2)) := by
    unfold gauss
    rw [← Real.exp_add]
    congr 1
    push_cast
    by_cases hw : w = 0
    · simp [hw]
    · field_simp
      ring
  unfold fibreField
  rw [e, mul_div_right_comm]

/-- A mask of one pixel of four meets the hypotheses, and a tilted field over two pixels couples less than a flat one. -/
example : instStrehl 2 (fun i _ => i) 1 (fun _ j => if j = 0 then 1 else -1) < 1 - refCouplingLoss 2 (fun i _ => i) 1 := by
  have h0 : ∀ i < 2, ∀ j < 2, (0 : ℝ) ≤ (fun (i _ : ℕ) => (i : ℝ)) i j := by intro i _ j _; positivity
  have he : ∀ i < 2, ∀ j < 2, ‖(fun (_ j : ℕ) => if j = 0 then (1 : ℂ) else -1) i j‖ ≤ 1 := by intro i _ j _; simp only; split <;> simp
  refine lt_of_le_of_ne (C101_flat_is_best 2 (by norm_num) _ h0 1 _ he) fun h => ?_
  obtain ⟨u, _, hall⟩ := (C101_best_iff_flat 2 _ h0 ⟨1, by norm_num, 0, by norm_num, by norm_num⟩ 1 _ he).mp h
  have h1 := hall 1 (by norm_num) 0 (by norm_num) (by norm_num)
  have h2 := hall 1 (by norm_num) 1 (by norm_num) (by norm_num)
  simp only [if_true] at h1
  rw [← h1] at h2
  norm_num at h2

end Soapy.Props
