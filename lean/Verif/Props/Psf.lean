/-
C86: the Strehl ratio does not exceed one.  C87: light of a sub-aperture.  C88: light of the pyramid sensor.
-/
import Verif.Lemmas.Parseval
import Verif.Props.Par
import Verif.Model.Science
import Verif.Props.Tools
import Mathlib.Tactic.IntervalCases
import Mathlib.Tactic.Linarith

namespace Soapy.Props

open Soapy.Spot Soapy.Psf Soapy.Lemmas Finset

/-! ### Shifts -/

/-- `shiftIdx` is what the loops of `fftshift_2d_inplace` do, for every schedule of the threads (C38). -/
theorem shiftIdx_loops (N : ℕ) (t : List (ℕ × Par.Op Par.Loc)) (ht : Par.Interleaving (N / 2) (Par.shiftThread N N) t) (m : Par.Loc → ℚ) (i j : ℕ) :
    Par.exec m t (.px i j) = m (.px (shiftIdx N (i, j)).1 (shiftIdx N (i, j)).2) := by
  rw [C38_quadrants N N t ht]
  unfold shiftIdx
  by_cases h : i < 2 * (N / 2) ∧ j < 2 * (N / 2)
  · rw [if_pos h, if_pos h]
    unfold Par.swapIdx
    split_ifs <;> first | rfl | omega
  · rw [if_neg h, if_neg h]

theorem shiftIdx_mem (N : ℕ) (p : ℕ × ℕ) (hp : p ∈ range N ×ˢ range N) : shiftIdx N p ∈ range N ×ˢ range N := by
  rw [mem_product, mem_range, mem_range] at hp ⊢
  unfold shiftIdx
  dsimp only
  split_ifs <;> constructor <;> (try dsimp only) <;> omega

theorem shiftIdx_shiftIdx (N : ℕ) (p : ℕ × ℕ) : shiftIdx N (shiftIdx N p) = p := by
  obtain ⟨i, j⟩ := p
  unfold shiftIdx
  simp only
  by_cases h : i < 2 * (N / 2) ∧ j < 2 * (N / 2)
  · by_cases h1 : i < N / 2 <;> by_cases h2 : j < N / 2 <;> simp only [h, h1, h2, and_self, if_true, if_false] <;>
      split_ifs <;> first | omega | (simp only [Prod.mk.injEq]; omega)
  · simp only [h, if_false]

theorem sum_shift (N : ℕ) (f : ℕ × ℕ → ℝ) : ∑ i ∈ range N, ∑ j ∈ range N, f (shiftIdx N (i, j)) = ∑ i ∈ range N, ∑ j ∈ range N, f (i, j) :=
  sum_perm2 N f (shiftIdx N) (shiftIdx N) (shiftIdx_mem N) (shiftIdx_mem N) (fun p _ => shiftIdx_shiftIdx N p) (fun p _ => shiftIdx_shiftIdx N p)

/-- The zero frequency is at `N // 2`. -/
theorem shiftIdx_centre (N : ℕ) : shiftIdx N (N / 2, N / 2) = (0, 0) := by
  unfold shiftIdx
  simp only
  by_cases h : N / 2 < 2 * (N / 2)
  · rw [if_pos ⟨h, h⟩, if_neg (by omega)]; simp
  · rw [if_neg (by omega)]
    have : N / 2 = 0 := by omega
    rw [this]

/-! ### Parseval for the science image -/

theorem sum_placed (N n : ℕ) (hn : n ≤ N) (e : ℕ → ℕ → ℂ) (w : ℂ → ℝ) (hw : w 0 = 0) :
    ∑ i ∈ range N, ∑ j ∈ range N, w (placed N n e (i, j)) = ∑ j ∈ range n, ∑ k ∈ range n, w (e j k) := by
  have ho : (N - n) / 2 + n ≤ N := by omega
  have h1 : ∀ i ∈ range N, ∑ j ∈ range N, w (placed N n e (i, j)) =
      if (N - n) / 2 ≤ i ∧ i < (N - n) / 2 + n then ∑ k ∈ range n, w (e (i - (N - n) / 2) k) else 0 := by
    intro i _
    by_cases hi : (N - n) / 2 ≤ i ∧ i < (N - n) / 2 + n
    · rw [if_pos hi, ← sum_window N n ((N - n) / 2) ho fun k => w (e (i - (N - n) / 2) k)]
      refine sum_congr rfl fun j _ => ?_
      unfold placed
      simp only [hi, and_self, true_and]
      split_ifs
      · rfl
      · exact hw
    · rw [if_neg hi]
      refine sum_eq_zero fun j _ => ?_
      unfold placed
      simp only [hi, false_and, if_false, hw]
  rw [sum_congr rfl h1]
  exact sum_window N n ((N - n) / 2) ho fun j => ∑ k ∈ range n, w (e j k)

/-- Light in the whole focal plane. -/
theorem sum_intensity (N n : ℕ) (hN : 0 < N) (hn : n ≤ N) (e : ℕ → ℕ → ℂ) :
    ∑ p ∈ range N, ∑ q ∈ range N, intensity N n e p q = (N : ℝ) ^ 2 * ∑ j ∈ range n, ∑ k ∈ range n, Complex.normSq (e j k) := by
  unfold intensity
  rw [sum_shift N fun p => Complex.normSq (focus N n e p)]
  have h := parseval2 N N hN le_rfl (fun j k => placed N n e (shiftIdx N (j, k))) (-1) (Or.inr rfl)
  unfold focus
  simp only [neg_one_mul] at h
  simp only
  rw [h, sum_shift N fun p => Complex.normSq (placed N n e p), sum_placed N n hn e Complex.normSq Complex.normSq_zero]

theorem field_normSq (m phi : ℕ → ℕ → ℝ) (j k : ℕ) : Complex.normSq (field m phi j k) = m j k ^ 2 := by
  rw [field, Complex.normSq_mul, cis_normSq', one_mul, Complex.normSq_ofReal]; ring

theorem field_norm (m phi : ℕ → ℕ → ℝ) (j k : ℕ) : ‖field m phi j k‖ = |m j k| := by
  rw [field, norm_mul, cis_norm', one_mul, Complex.norm_real, Real.norm_eq_abs]

theorem intensity_nonneg (N n : ℕ) (e : ℕ → ℕ → ℂ) (p q : ℕ) : 0 ≤ intensity N n e p q := Complex.normSq_nonneg _

/-- No point of the focal plane is brighter than the square of the aperture's sum. -/
theorem intensity_le (N n : ℕ) (hn : n ≤ N) (m phi : ℕ → ℕ → ℝ) (hm : ∀ j k, 0 ≤ m j k) (p q : ℕ) :
    intensity N n (field m phi) p q ≤ (∑ j ∈ range n, ∑ k ∈ range n, m j k) ^ 2 := by
  have h : ‖focus N n (field m phi) (shiftIdx N (p, q))‖ ≤ ∑ j ∈ range n, ∑ k ∈ range n, m j k := by
    unfold focus
    refine (norm_sum_le _ _).trans ?_
    refine (sum_le_sum fun j _ => norm_sum_le _ _).trans ?_
    refine (sum_le_sum fun j _ => sum_le_sum fun k _ => (norm_mul _ _).le).trans ?_
    simp only [cis_norm', mul_one]
    rw [sum_shift N fun p => ‖placed N n (field m phi) p‖, sum_placed N n hn (field m phi) norm norm_zero]
    refine le_of_eq (sum_congr rfl fun j _ => sum_congr rfl fun k _ => ?_)
    rw [field_norm, abs_of_nonneg (hm j k)]
  unfold intensity
  rw [Complex.normSq_eq_norm_sq]
  have := norm_nonneg (focus N n (field m phi) (shiftIdx N (p, q)))
  gcongr

/-- With a flat wavefront that bound is reached in the centre. -/
theorem intensity_flat (N n : ℕ) (hn : n ≤ N) (m : ℕ → ℕ → ℝ) (c : ℝ) :
    intensity N n (field m fun _ _ => c) (N / 2) (N / 2) = (∑ j ∈ range n, ∑ k ∈ range n, m j k) ^ 2 := by
  have h : focus N n (field m fun _ _ => c) (0, 0) = cis c * ((∑ j ∈ range n, ∑ k ∈ range n, m j k : ℝ) : ℂ) := by
    unfold focus
    simp only [Nat.cast_zero, zero_mul, add_zero, mul_zero, zero_div, neg_zero, cis_zero', mul_one]
    have hr := fun w : ℂ → ℝ => fun hw : w 0 = 0 => (sum_shift N fun p => w (placed N n (field m fun _ _ => c) p)).trans (sum_placed N n hn (field m fun _ _ => c) w hw)
    apply Complex.ext
    · simp only [Complex.re_sum]
      rw [hr Complex.re rfl, Complex.re_mul_ofReal, mul_sum]
      refine sum_congr rfl fun j _ => ?_
      rw [mul_sum]
      exact sum_congr rfl fun k _ => by rw [field, Complex.re_mul_ofReal]
    · simp only [Complex.im_sum]
      rw [hr Complex.im rfl, Complex.im_mul_ofReal, mul_sum]
      refine sum_congr rfl fun j _ => ?_
      rw [mul_sum]
      exact sum_congr rfl fun k _ => by rw [field, Complex.im_mul_ofReal]
  unfold intensity
  rw [shiftIdx_centre N, h, Complex.normSq_mul, cis_normSq', one_mul, Complex.normSq_ofReal]; ring

/-! ### C86 -/

theorem peak_le (px : ℕ) (hpx : 0 < px) (img : ℕ → ℕ → ℝ) (B : ℝ) (h : ∀ i < px, ∀ j < px, img i j ≤ B) : peak px hpx img ≤ B := by
  refine sup'_le _ _ fun p hp => ?_
  rw [mem_product, mem_range, mem_range] at hp
  exact h _ hp.1 _ hp.2

theorem le_peak (px : ℕ) (hpx : 0 < px) (img : ℕ → ℕ → ℝ) (i j : ℕ) (hi : i < px) (hj : j < px) : img i j ≤ peak px hpx img :=
  le_sup' (fun p : ℕ × ℕ => img p.1 p.2) (by rw [mem_product, mem_range, mem_range]; exact ⟨hi, hj⟩ : (i, j) ∈ range px ×ˢ range px)

theorem total_raw (n b px : ℕ) (hpx : 0 < px) (hb : 0 < b) (hn : n ≤ px * b) (m phi : ℕ → ℕ → ℝ) :
    total px (raw (px * b) n 0 b (field m phi)) = ((px * b : ℕ) : ℝ) ^ 2 * ∑ j ∈ range n, ∑ k ∈ range n, m j k ^ 2 := by
  unfold total raw
  rw [sum_binned]
  simp only [cropped, add_zero]
  rw [sum_intensity (px * b) n (Nat.mul_pos hpx hb) hn]
  simp only [field_normSq]

theorem raw_le (n b px : ℕ) (hn : n ≤ px * b) (m phi : ℕ → ℕ → ℝ) (hm : ∀ j k, 0 ≤ m j k) (i j : ℕ) :
    raw (px * b) n 0 b (field m phi) i j ≤ (b : ℝ) ^ 2 * (∑ j ∈ range n, ∑ k ∈ range n, m j k) ^ 2 := by
  unfold raw binned
  refine (sum_le_sum (g := fun _ => ∑ _y ∈ range b, (∑ j ∈ range n, ∑ k ∈ range n, m j k) ^ 2) fun x _ => sum_le_sum fun y _ => ?_).trans (le_of_eq ?_)
  · simp only [cropped, add_zero]
    exact intensity_le _ n hn m phi hm _ _
  · simp only [sum_const, card_range, nsmul_eq_mul]; ring

/-- The pixel with the zero frequency. -/
theorem raw_flat_ge (n b px : ℕ) (hb : 0 < b) (hn : n ≤ px * b) (m : ℕ → ℕ → ℝ) (c : ℝ) :
    (∑ j ∈ range n, ∑ k ∈ range n, m j k) ^ 2 ≤ raw (px * b) n 0 b (field m fun _ _ => c) (px * b / 2 / b) (px * b / 2 / b) := by
  rw [← intensity_flat (px * b) n hn m c]
  unfold raw binned
  have hmod : px * b / 2 % b < b := Nat.mod_lt _ hb
  have hdiv : px * b / 2 % b + px * b / 2 / b * b = px * b / 2 := Nat.mod_add_div' _ _
  refine le_trans ?_ (single_le_sum (f := fun x => ∑ y ∈ range b, cropped 0 (intensity (px * b) n (field m fun _ _ => c)) (x + px * b / 2 / b * b) (y + px * b / 2 / b * b))
    (fun x _ => sum_nonneg fun y _ => intensity_nonneg _ _ _ _ _) (mem_range.mpr hmod))
  refine le_trans ?_ (single_le_sum (f := fun y => cropped 0 (intensity (px * b) n (field m fun _ _ => c)) (px * b / 2 % b + px * b / 2 / b * b) (y + px * b / 2 / b * b))
    (fun y _ => intensity_nonneg _ _ _ _ _) (mem_range.mpr hmod))
  simp only [cropped, add_zero, hdiv, le_refl]

theorem light_pos (n : ℕ) (m : ℕ → ℕ → ℝ) (hpos : 0 < ∑ j ∈ range n, ∑ k ∈ range n, m j k) : 0 < ∑ j ∈ range n, ∑ k ∈ range n, m j k ^ 2 := by
  have h : ∀ j k, 0 ≤ m j k ^ 2 := fun j k => sq_nonneg _
  refine lt_of_le_of_ne (sum_nonneg fun j _ => sum_nonneg fun k _ => h j k) fun e => ?_
  have e1 := (sum_eq_zero_iff_of_nonneg fun j _ => sum_nonneg fun k _ => h j k).mp e.symm
  have : ∑ j ∈ range n, ∑ k ∈ range n, m j k = 0 := by
    refine sum_eq_zero fun j hj => sum_eq_zero fun k hk => ?_
    have := (sum_eq_zero_iff_of_nonneg fun k _ => h j k).mp (e1 j hj) k hk
    exact pow_eq_zero_iff (by norm_num) |>.mp this
  linarith

/-- Ratio of a peak and the perfect peak, when both images have the same light. -/
theorem ratio_le (n b px : ℕ) (hpx : 0 < px) (hb : 0 < b) (hn : n ≤ px * b) (m : ℕ → ℕ → ℝ)
    (hpos : 0 < ∑ j ∈ range n, ∑ k ∈ range n, m j k) (x B : ℝ) (h : x * (((px * b : ℕ) : ℝ) ^ 2 * ∑ j ∈ range n, ∑ k ∈ range n, m j k ^ 2) ≤ B * (∑ j ∈ range n, ∑ k ∈ range n, m j k) ^ 2) (hB : 0 ≤ B) :
    x / psfMax (px * b) n 0 b px hpx m ≤ B := by
  have hN : 0 < px * b := Nat.mul_pos hpx hb
  have hL : 0 < ((px * b : ℕ) : ℝ) ^ 2 * ∑ j ∈ range n, ∑ k ∈ range n, m j k ^ 2 := by
    have := light_pos n m hpos
    have : 0 < ((px * b : ℕ) : ℝ) := by exact_mod_cast hN
    positivity
  have hcen : px * b / 2 / b < px := by
    rw [Nat.div_lt_iff_lt_mul hb]
    exact Nat.div_lt_self hN (by norm_num)
  have hq : (∑ j ∈ range n, ∑ k ∈ range n, m j k) ^ 2 / (((px * b : ℕ) : ℝ) ^ 2 * ∑ j ∈ range n, ∑ k ∈ range n, m j k ^ 2) ≤ psfMax (px * b) n 0 b px hpx m := by
    refine le_trans ?_ (le_peak px hpx _ (px * b / 2 / b) (px * b / 2 / b) hcen hcen)
    rw [unit, total_raw n b px hpx hb hn]
    exact div_le_div_of_nonneg_right (raw_flat_ge n b px hb hn m 0) hL.le
  have hS : 0 < (∑ j ∈ range n, ∑ k ∈ range n, m j k) ^ 2 := by positivity
  have hpm : 0 < psfMax (px * b) n 0 b px hpx m := lt_of_lt_of_le (div_pos hS hL) hq
  rw [div_le_iff₀ hpm]
  calc x = x * (((px * b : ℕ) : ℝ) ^ 2 * ∑ j ∈ range n, ∑ k ∈ range n, m j k ^ 2) / (((px * b : ℕ) : ℝ) ^ 2 * ∑ j ∈ range n, ∑ k ∈ range n, m j k ^ 2) := (mul_div_cancel_right₀ x hL.ne').symm
    _ ≤ B * (∑ j ∈ range n, ∑ k ∈ range n, m j k) ^ 2 / (((px * b : ℕ) : ℝ) ^ 2 * ∑ j ∈ range n, ∑ k ∈ range n, m j k ^ 2) := div_le_div_of_nonneg_right h hL.le
    _ = B * ((∑ j ∈ range n, ∑ k ∈ range n, m j k) ^ 2 / (((px * b : ℕ) : ℝ) ^ 2 * ∑ j ∈ range n, ∑ k ∈ range n, m j k ^ 2)) := by ring
    _ ≤ _ := by gcongr

/-- **C86 (uncropped images; partial).** If the field of view has at least as many elements as the pupil (nothing is cropped), the Strehl ratio of a frame is at most the square of `fftOversamp`, and at most 1 if that is 1;
the same for the value of the central pixel and for a long exposure.  Missing: an image with cropping, and 1 as a bound with oversampling (violated). -/
theorem C86_bound_partial (n b px : ℕ) (hpx : 0 < px) (hb : 0 < b) (hn : n ≤ px * b) (m phi : ℕ → ℕ → ℝ) (hm : ∀ j k, 0 ≤ m j k)
    (hpos : 0 < ∑ j ∈ range n, ∑ k ∈ range n, m j k) (phis : List (ℕ → ℕ → ℝ)) (hne : phis ≠ []) :
    instStrehl (px * b) n 0 b px hpx m phi ≤ (b : ℝ) ^ 2 ∧ instStrehlTT (px * b) n 0 b px hpx m phi ≤ (b : ℝ) ^ 2 ∧ longStrehl (px * b) n 0 b px hpx m phis ≤ (b : ℝ) ^ 2 := by
  have hN : 0 < px * b := Nat.mul_pos hpx hb
  have hL : 0 < ((px * b : ℕ) : ℝ) ^ 2 * ∑ j ∈ range n, ∑ k ∈ range n, m j k ^ 2 := by
    have := light_pos n m hpos
    have : 0 < ((px * b : ℕ) : ℝ) := by exact_mod_cast hN
    positivity
  have hunit : ∀ i j, unit px (raw (px * b) n 0 b (field m phi)) i j * (((px * b : ℕ) : ℝ) ^ 2 * ∑ j ∈ range n, ∑ k ∈ range n, m j k ^ 2) ≤ (b : ℝ) ^ 2 * (∑ j ∈ range n, ∑ k ∈ range n, m j k) ^ 2 := by
    intro i j
    rw [unit, total_raw n b px hpx hb hn, div_mul_cancel₀ _ hL.ne']
    exact raw_le n b px hn m phi hm i j
  have htot : total px (longRaw (px * b) n 0 b m phis) = phis.length * (((px * b : ℕ) : ℝ) ^ 2 * ∑ j ∈ range n, ∑ k ∈ range n, m j k ^ 2) := by
    clear hne
    induction phis with
    | nil => simp [total, longRaw]
    | cons p ps ih =>
      have e : total px (longRaw (px * b) n 0 b m (p :: ps)) = total px (raw (px * b) n 0 b (field m p)) + total px (longRaw (px * b) n 0 b m ps) := by
        simp only [total, longRaw, List.map_cons, List.sum_cons, sum_add_distrib]
      rw [e, ih, total_raw n b px hpx hb hn, List.length_cons]; push_cast; ring
  have hlen : (0 : ℝ) < phis.length := by exact_mod_cast List.length_pos_iff.mpr hne
  have hlong : ∀ i j, longRaw (px * b) n 0 b m phis i j ≤ phis.length * ((b : ℝ) ^ 2 * (∑ j ∈ range n, ∑ k ∈ range n, m j k) ^ 2) := by
    intro i j
    clear hne htot hlen
    induction phis with
    | nil => simp [longRaw]
    | cons p ps ih =>
      have h1 := raw_le n b px hn m p hm i j
      have e : longRaw (px * b) n 0 b m (p :: ps) i j = raw (px * b) n 0 b (field m p) i j + longRaw (px * b) n 0 b m ps i j := by
        simp only [longRaw, List.map_cons, List.sum_cons]
      rw [e, List.length_cons]; push_cast; linarith
  refine ⟨?_, ?_, ?_⟩
  · refine ratio_le n b px hpx hb hn m hpos _ _ ?_ (by positivity)
    rw [← le_div_iff₀ hL]
    exact peak_le px hpx _ _ fun i _ j _ => by rw [le_div_iff₀ hL]; exact hunit i j
  · exact ratio_le n b px hpx hb hn m hpos _ _ (hunit _ _) (by positivity)
  · refine ratio_le n b px hpx hb hn m hpos _ _ ?_ (by positivity)
    rw [← le_div_iff₀ hL]
    refine peak_le px hpx _ _ fun i _ j _ => ?_
    rw [unit, htot, div_le_div_iff₀ (by positivity) hL]
    have := hlong i j
    nlinarith

/-- The bound 1 for cameras without oversampling and cropping. -/
theorem C86_at_most_one_partial (n px : ℕ) (hpx : 0 < px) (hn : n ≤ px) (m phi : ℕ → ℕ → ℝ) (hm : ∀ j k, 0 ≤ m j k)
    (hpos : 0 < ∑ j ∈ range n, ∑ k ∈ range n, m j k) (phis : List (ℕ → ℕ → ℝ)) (hne : phis ≠ []) :
    instStrehl px n 0 1 px hpx m phi ≤ 1 ∧ instStrehlTT px n 0 1 px hpx m phi ≤ 1 ∧ longStrehl px n 0 1 px hpx m phis ≤ 1 := by
  have h := C86_bound_partial n 1 px hpx Nat.one_pos (by omega) m phi hm hpos phis hne
  simpa using h

/-- A camera with 4 pixels, 2 elements across a full aperture, and a curved wavefront. -/
example : instStrehl 4 2 0 1 4 (by norm_num) (fun _ _ => 1) (fun j k => (j : ℝ) * k) ≤ 1 :=
  (C86_at_most_one_partial 2 4 (by norm_num) (by norm_num) (fun _ _ => 1) (fun j k => (j : ℝ) * k) (by simp) (by simp) [fun _ _ => 0] (by simp)).1

theorem raw_piston (N n crop b : ℕ) (m phi : ℕ → ℕ → ℝ) (c : ℝ) : raw N n crop b (field m fun j k => phi j k + c) = raw N n crop b (field m phi) := by
  have h : ∀ p, placed N n (field m fun j k => phi j k + c) p = cis c * placed N n (field m phi) p := by
    intro p
    unfold placed
    simp only
    split_ifs
    · rw [field, field, cis_add']; ring
    · simp
  have hf : ∀ u, focus N n (field m fun j k => phi j k + c) u = cis c * focus N n (field m phi) u := by
    intro u
    unfold focus
    rw [mul_sum]
    refine sum_congr rfl fun j _ => ?_
    rw [mul_sum]
    exact sum_congr rfl fun k _ => by rw [h]; ring
  have hi : intensity N n (field m fun j k => phi j k + c) = intensity N n (field m phi) := by
    funext p q
    unfold intensity
    rw [hf, Complex.normSq_mul, cis_normSq', one_mul]
  rw [raw, hi, raw]

/-- **C86 (piston).** Piston changes no pixel; a flat wavefront has a Strehl ratio of 1, for every size, crop and binning (as long as the camera gets light). -/
theorem C86_flat (N n crop b px : ℕ) (hpx : 0 < px) (m phi : ℕ → ℕ → ℝ) (c : ℝ) :
    instStrehl N n crop b px hpx m (fun j k => phi j k + c) = instStrehl N n crop b px hpx m phi ∧
    (psfMax N n crop b px hpx m ≠ 0 → instStrehl N n crop b px hpx m (fun _ _ => c) = 1) := by
  have h1 := fun phi : ℕ → ℕ → ℝ => raw_piston N n crop b m phi c
  refine ⟨by rw [instStrehl, h1, instStrehl], fun h => ?_⟩
  have h2 := h1 fun _ _ => 0
  simp only [zero_add] at h2
  rw [instStrehl, h2]
  exact div_self h

/-- With the tip-tilt option (value of the central pixel): a flat wavefront has a Strehl ratio of 1 on a camera without oversampling and cropping. -/
theorem C86_flat_centre_partial (n px : ℕ) (hpx : 0 < px) (hn : n ≤ px) (m : ℕ → ℕ → ℝ) (hm : ∀ j k, 0 ≤ m j k) (hpos : 0 < ∑ j ∈ range n, ∑ k ∈ range n, m j k) (c : ℝ) :
    instStrehlTT px n 0 1 px hpx m (fun _ _ => c) = 1 := by
  refine le_antisymm (C86_at_most_one_partial n px hpx hn m (fun _ _ => c) hm hpos [fun _ _ => 0] (by simp)).2.1 ?_
  have hn1 : n ≤ px * 1 := by omega
  have hL : 0 < total px (raw px n 0 1 (field m fun _ _ => c)) := by
    have h := total_raw n 1 px hpx Nat.one_pos hn1 m fun _ _ => c
    rw [Nat.mul_one] at h
    rw [h]
    have := light_pos n m hpos
    have : (0 : ℝ) < px := by exact_mod_cast hpx
    positivity
  have hc : raw px n 0 1 (field m fun _ _ => c) (px / 2) (px / 2) = (∑ j ∈ range n, ∑ k ∈ range n, m j k) ^ 2 := by
    have h1 := raw_le n 1 px hn1 m (fun _ _ => c) hm (px / 2) (px / 2)
    have h2 := raw_flat_ge n 1 px Nat.one_pos hn1 m c
    simp only [Nat.mul_one, Nat.div_one, Nat.cast_one, one_pow, one_mul] at h1 h2
    exact le_antisymm h1 h2
  have h0 := raw_piston px n 0 1 m (fun _ _ => 0) c
  simp only [zero_add] at h0
  have hmax : psfMax px n 0 1 px hpx m ≤ unit px (raw px n 0 1 (field m fun _ _ => c)) (px / 2) (px / 2) := by
    refine peak_le _ _ _ _ fun i _ j _ => ?_
    rw [unit, unit, ← h0, hc]
    refine div_le_div_of_nonneg_right ?_ hL.le
    have h1 := raw_le n 1 px hn1 m (fun _ _ => c) hm i j
    simpa using h1
  have hpm : 0 < psfMax px n 0 1 px hpx m := by
    refine lt_of_lt_of_le ?_ (le_peak px hpx _ (px / 2) (px / 2) (Nat.div_lt_self hpx (by norm_num)) (Nat.div_lt_self hpx (by norm_num)))
    rw [unit, ← h0, hc]
    exact div_pos (by positivity) hL
  rw [instStrehlTT, le_div_iff₀ hpm, one_mul]
  exact hmax

/-- A camera of 6 pixels, an aperture of 3 elements with a hole, piston 0.7. -/
example : instStrehlTT 6 3 0 1 6 (by norm_num) (fun j k => if j = 1 ∧ k = 1 then 0 else 1) (fun _ _ => 0.7) = 1 :=
  C86_flat_centre_partial 3 6 (by norm_num) (by norm_num) _ (fun j k => by split_ifs <;> norm_num) (by norm_num [sum_range_succ]) 0.7

/-! Two elements across, tilted by `θ` per element, on an FFT of four. -/

theorem normSq_cis_add (a b : ℝ) : Complex.normSq (cis a + cis b) = 2 + 2 * Real.cos (a - b) := by
  have h : ∀ x : ℝ, (cis x).re = Real.cos x ∧ (cis x).im = Real.sin x := fun x =>
    ⟨by rw [cis, Complex.exp_ofReal_mul_I_re], by rw [cis, Complex.exp_ofReal_mul_I_im]⟩
  rw [Complex.normSq_apply, Complex.add_re, Complex.add_im, (h a).1, (h a).2, (h b).1, (h b).2, Real.cos_sub]
  nlinarith [Real.sin_sq_add_cos_sq a, Real.sin_sq_add_cos_sq b]

/-- Intensity along one axis. -/
noncomputable def tiltPsf (θ : ℝ) (p : ℕ) : ℝ :=
  match p with
  | 0 => 2 - 2 * Real.cos θ
  | 1 => 2 - 2 * Real.sin θ
  | 2 => 2 + 2 * Real.cos θ
  | _ => 2 + 2 * Real.sin θ

theorem intensity_tilt (θ : ℝ) (p q : ℕ) (hp : p < 4) (hq : q < 4) :
    intensity 4 2 (field (fun _ _ => 1) fun j k => θ * (j + k)) p q = tiltPsf θ p * tiltPsf θ q := by
  have hf : ∀ u v : ℕ, focus 4 2 (field (fun _ _ => 1) fun j k => θ * (j + k)) (u, v) =
      (cis θ + cis (-(3 * Real.pi / 2 * u))) * (cis θ + cis (-(3 * Real.pi / 2 * v))) := by
    intro u v
    unfold focus
    simp only [sum_range_succ, range_zero, sum_empty, placed, shiftIdx, field]
    norm_num
    rw [add_mul, mul_add, mul_add]
    simp only [← cis_add']
    rw [mul_add, ← cis_add', ← cis_add']
    congr 1 <;> congr 1 <;> congr 1 <;> ring
  have hg : ∀ p < 4, ∃ u : ℕ, (∀ q < 4, ∃ v : ℕ, shiftIdx 4 (p, q) = (u, v) ∧ 2 + 2 * Real.cos (θ - -(3 * Real.pi / 2 * v)) = tiltPsf θ q) ∧
      2 + 2 * Real.cos (θ - -(3 * Real.pi / 2 * u)) = tiltPsf θ p := by
    have t0 : 2 + 2 * Real.cos (θ - -(3 * Real.pi / 2 * ((2 : ℕ) : ℝ))) = tiltPsf θ 0 := by
      rw [show θ - -(3 * Real.pi / 2 * ((2 : ℕ) : ℝ)) = θ + Real.pi + 2 * Real.pi by push_cast; ring, Real.cos_add_two_pi, Real.cos_add_pi]; simp only [tiltPsf]; try ring
    have t1 : 2 + 2 * Real.cos (θ - -(3 * Real.pi / 2 * ((3 : ℕ) : ℝ))) = tiltPsf θ 1 := by
      rw [show θ - -(3 * Real.pi / 2 * ((3 : ℕ) : ℝ)) = θ + Real.pi / 2 + 2 * Real.pi + 2 * Real.pi by push_cast; ring, Real.cos_add_two_pi, Real.cos_add_two_pi, Real.cos_add_pi_div_two]; simp only [tiltPsf]; try ring
    have t2 : 2 + 2 * Real.cos (θ - -(3 * Real.pi / 2 * ((0 : ℕ) : ℝ))) = tiltPsf θ 2 := by
      rw [show θ - -(3 * Real.pi / 2 * ((0 : ℕ) : ℝ)) = θ by push_cast; ring]; simp only [tiltPsf]; try ring
    have t3 : 2 + 2 * Real.cos (θ - -(3 * Real.pi / 2 * ((1 : ℕ) : ℝ))) = tiltPsf θ 3 := by
      rw [show θ - -(3 * Real.pi / 2 * ((1 : ℕ) : ℝ)) = θ + Real.pi / 2 + Real.pi by push_cast; ring, Real.cos_add_pi, Real.cos_add_pi_div_two]; simp only [tiltPsf]; try ring
    have hq : ∀ p < 4, ∀ q < 4, ∃ v : ℕ, shiftIdx 4 (p, q) = ((p + 2) % 4, v) ∧ 2 + 2 * Real.cos (θ - -(3 * Real.pi / 2 * v)) = tiltPsf θ q := by
      intro p hp q hq
      interval_cases q
      · exact ⟨2, by interval_cases p <;> rfl, t0⟩
      · exact ⟨3, by interval_cases p <;> rfl, t1⟩
      · exact ⟨0, by interval_cases p <;> rfl, t2⟩
      · exact ⟨1, by interval_cases p <;> rfl, t3⟩
    intro p hp
    refine ⟨(p + 2) % 4, hq p hp, ?_⟩
    interval_cases p
    · exact t0
    · exact t1
    · exact t2
    · exact t3
  obtain ⟨u, h1, h2⟩ := hg p hp
  obtain ⟨v, h3, h4⟩ := h1 q hq
  unfold intensity
  rw [h3, hf, Complex.normSq_mul, normSq_cis_add, normSq_cis_add, h2, h4]

/-- C86 as a user would state it: a frame's Strehl ratio is at most one, for every camera the code accepts. -/
def C86_Statement : Prop :=
  ∀ (k pupil px f : ℕ) (s : Science.Sizes) (hpx : 0 < px), Science.sizes k pupil px f = .ok s → Science.focalPlane s px f = .ok () →
    ∀ m phi : ℕ → ℕ → ℝ, (∀ j k, 0 ≤ m j k) → 0 < ∑ j ∈ range s.fov, ∑ k ∈ range s.fov, m j k →
      instStrehl s.fft s.fov s.crop f px hpx m phi ≤ 1

theorem tilt_flat : (fun j k : ℕ => (0 : ℝ) * (j + k)) = fun _ _ => 0 := by funext j k; ring

/-- **C86 (violated by oversampling).** `fftOversamp = 2`: the perfect image is centred on the corner of a pixel group, so a tilt puts more of the light into one pixel than a flat wavefront does, and the Strehl ratio is
`(24 + 16 √2) / 36 > 1.29` -- with and without the tip-tilt option. -/
theorem C86_oversampling_violated :
    Science.sizes 2 1 2 2 = .ok ⟨2, 4, (1, 3), 0, 4⟩ ∧ Science.focalPlane ⟨2, 4, (1, 3), 0, 4⟩ 2 2 = .ok () ∧
    129 / 100 < instStrehl 4 2 0 2 2 (by norm_num) (fun _ _ => 1) (fun j k => Real.pi / 4 * (j + k)) ∧
    129 / 100 < instStrehlTT 4 2 0 2 2 (by norm_num) (fun _ _ => 1) (fun j k => Real.pi / 4 * (j + k)) := by
  have hb : ∀ θ i j, i < 2 → j < 2 → raw 4 2 0 2 (field (fun _ _ => 1) fun j k => θ * (j + k)) i j =
      (tiltPsf θ (i * 2) + tiltPsf θ (1 + i * 2)) * (tiltPsf θ (j * 2) + tiltPsf θ (1 + j * 2)) := by
    intro θ i j hi hj
    simp only [raw, binned, cropped, sum_range_succ, range_zero, sum_empty, zero_add, add_zero]
    rw [intensity_tilt _ _ _ (by omega) (by omega), intensity_tilt _ _ _ (by omega) (by omega), intensity_tilt _ _ _ (by omega) (by omega), intensity_tilt _ _ _ (by omega) (by omega)]
    ring
  have ht : ∀ θ : ℝ, total 2 (raw 4 2 0 2 (field (fun _ _ => 1) fun j k => θ * (j + k))) = 64 := by
    intro θ
    have := total_raw 2 2 2 (by norm_num) (by norm_num) (by norm_num) (fun _ _ => 1) fun j k => θ * (j + k)
    rw [show 2 * 2 = 4 from rfl] at this
    rw [this]; norm_num
  have hflat : psfMax 4 2 0 2 2 (by norm_num) (fun _ _ => 1) ≤ 36 / 64 := by
    unfold psfMax
    rw [← tilt_flat]
    refine peak_le _ _ _ _ fun i hi j hj => ?_
    rw [unit, ht, hb 0 i j hi hj]
    interval_cases i <;> interval_cases j <;> norm_num [tiltPsf]
  have hpos : 0 < psfMax 4 2 0 2 2 (by norm_num) (fun _ _ => 1) := by
    refine lt_of_lt_of_le ?_ (le_peak 2 (by norm_num) _ 1 1 (by norm_num) (by norm_num))
    rw [← tilt_flat, unit, ht, hb 0 1 1 (by norm_num) (by norm_num)]
    norm_num [tiltPsf]
  have hpx : 727 / 1000 < unit 2 (raw 4 2 0 2 (field (fun _ _ => 1) fun j k => Real.pi / 4 * (j + k))) 1 1 ∧ True := by
    refine ⟨?_, trivial⟩
    rw [unit, ht, hb _ 1 1 (by norm_num) (by norm_num)]
    have h2 : (1.414 : ℝ) < Real.sqrt 2 := by rw [Real.lt_sqrt (by norm_num)]; norm_num
    simp only [tiltPsf, Real.cos_pi_div_four, Real.sin_pi_div_four]
    rw [lt_div_iff₀ (by norm_num)]
    nlinarith [Real.sqrt_nonneg 2]
  have key : ∀ x : ℝ, 727 / 1000 < x → 129 / 100 < x / psfMax 4 2 0 2 2 (by norm_num) (fun _ _ => 1) := by
    intro x hx
    rw [lt_div_iff₀ hpos]; linarith
  exact ⟨by decide +kernel, by decide +kernel,
    key _ (lt_of_lt_of_le hpx.1 (le_peak 2 (by norm_num) _ 1 1 (by norm_num) (by norm_num))), key _ hpx.1⟩

/-- **C86 (violated by cropping).** A field of view with fewer elements than the pupil: the image is normalised with the light left after cropping, so a wavefront that throws light out of the field of view can get
a Strehl ratio of 9/4. -/
theorem C86_cropping_violated :
    Science.sizes 1 1 2 1 = .ok ⟨2, 4, (1, 3), 1, 2⟩ ∧ Science.focalPlane ⟨2, 4, (1, 3), 1, 2⟩ 2 1 = .ok () ∧
    9 / 4 ≤ instStrehl 4 2 1 1 2 (by norm_num) (fun _ _ => 1) (fun j k => Real.pi / 2 * (j + k)) := by
  have hb : ∀ θ i j, i < 2 → j < 2 → raw 4 2 1 1 (field (fun _ _ => 1) fun j k => θ * (j + k)) i j = tiltPsf θ (i + 1) * tiltPsf θ (j + 1) := by
    intro θ i j hi hj
    simp only [raw, binned, cropped, sum_range_one, zero_add, mul_one]
    exact intensity_tilt _ _ _ (by omega) (by omega)
  have ht : ∀ θ : ℝ, total 2 (raw 4 2 1 1 (field (fun _ _ => 1) fun j k => θ * (j + k))) = (tiltPsf θ 1 + tiltPsf θ 2) ^ 2 := by
    intro θ
    simp only [total, sum_range_succ, range_zero, sum_empty, zero_add]
    rw [hb _ _ _ (by norm_num) (by norm_num), hb _ _ _ (by norm_num) (by norm_num), hb _ _ _ (by norm_num) (by norm_num), hb _ _ _ (by norm_num) (by norm_num)]
    ring
  have hflat : psfMax 4 2 1 1 2 (by norm_num) (fun _ _ => 1) ≤ 16 / 36 := by
    unfold psfMax
    rw [← tilt_flat]
    refine peak_le _ _ _ _ fun i hi j hj => ?_
    rw [unit, ht, hb 0 i j hi hj]
    interval_cases i <;> interval_cases j <;> norm_num [tiltPsf]
  have hpos : 0 < psfMax 4 2 1 1 2 (by norm_num) (fun _ _ => 1) := by
    refine lt_of_lt_of_le ?_ (le_peak 2 (by norm_num) _ 1 1 (by norm_num) (by norm_num))
    rw [← tilt_flat, unit, ht, hb 0 1 1 (by norm_num) (by norm_num)]
    norm_num [tiltPsf]
  have hpx : 1 ≤ peak 2 (by norm_num) (unit 2 (raw 4 2 1 1 (field (fun _ _ => 1) fun j k => Real.pi / 2 * (j + k)))) := by
    refine le_trans ?_ (le_peak 2 (by norm_num) _ 1 1 (by norm_num) (by norm_num))
    rw [unit, ht, hb _ 1 1 (by norm_num) (by norm_num)]
    norm_num [tiltPsf]
  refine ⟨by decide +kernel, by decide +kernel, ?_⟩
  rw [instStrehl, le_div_iff₀ hpos]; linarith

theorem C86_violated : ¬ C86_Statement := by
  intro h
  obtain ⟨h1, h2, h3, _⟩ := C86_oversampling_violated
  have := h 2 1 2 2 _ (by norm_num) h1 h2 (fun _ _ => 1) (fun j k => Real.pi / 4 * (j + k)) (by simp) (by simp)
  linarith

/-! ### C87 -/

theorem sum_spot (nFft n : ℕ) (hN : 0 < nFft) (hn : n ≤ nFft) (e : ℕ → ℕ → ℂ) (tilt : ℕ → ℕ → ℝ) :
    ∑ p ∈ range nFft, ∑ q ∈ range nFft, spot nFft n e tilt p q = (nFft : ℝ) ^ 2 * ∑ j ∈ range n, ∑ k ∈ range n, Complex.normSq (e j k) := by
  unfold spot
  have hinv : ∀ p ∈ range nFft ×ˢ range nFft, ((Tools.ftShiftIdx nFft p.1, Tools.ftShiftIdx nFft p.2) : ℕ × ℕ) ∈ range nFft ×ˢ range nFft := by
    intro p hp
    rw [mem_product, mem_range, mem_range] at hp ⊢
    exact ⟨(Tools.C63_involution nFft p.1 hp.1).1, (Tools.C63_involution nFft p.2 hp.2).1⟩
  have hid : ∀ p ∈ range nFft ×ˢ range nFft, ((Tools.ftShiftIdx nFft (Tools.ftShiftIdx nFft p.1), Tools.ftShiftIdx nFft (Tools.ftShiftIdx nFft p.2)) : ℕ × ℕ) = p := by
    intro p hp
    rw [mem_product, mem_range, mem_range] at hp
    rw [(Tools.C63_involution nFft p.1 hp.1).2, (Tools.C63_involution nFft p.2 hp.2).2]
  rw [sum_perm2 nFft (fun p => Complex.normSq (focal nFft n e tilt p.1 p.2)) (fun p => (Tools.ftShiftIdx nFft p.1, Tools.ftShiftIdx nFft p.2))
    (fun p => (Tools.ftShiftIdx nFft p.1, Tools.ftShiftIdx nFft p.2)) hinv hinv hid hid]
  have h := parseval2 nFft n hN hn (fun j k => e j k * cis (tilt j k)) (-1) (Or.inr rfl)
  simp only [neg_one_mul] at h
  simp only [focal]
  rw [h]
  simp only [Complex.normSq_mul, cis_normSq', mul_one]

/-- **C87 (partial).** All the light that enters a sub-aperture is in its image, whatever the phase and the tilt correction: `nFft²` times the number of lit elements (the sum of the squared mask), times the fill factor.
Missing: proportionality to the lit area (violated). -/
theorem C87_conserved_partial (P b n : ℕ) (hP : 0 < P) (hb : 0 < b) (hn : n ≤ P * b) (m phi tilt : ℕ → ℕ → ℝ) (fill : ℝ) :
    ∑ i ∈ range P, ∑ j ∈ range P, subapImage (P * b) n b m phi tilt fill i j =
      ((P * b : ℕ) : ℝ) ^ 2 * (∑ j ∈ range n, ∑ k ∈ range n, m j k ^ 2) * fill := by
  unfold subapImage
  simp only [← sum_mul]
  rw [sum_binned, sum_spot (P * b) n (Nat.mul_pos hP hb) hn]
  simp only [subapField, Complex.normSq_mul, cis_normSq', one_mul, Complex.normSq_ofReal, sq]

/-- Two aberrations give the same light. -/
theorem C87_phase (P b n : ℕ) (hP : 0 < P) (hb : 0 < b) (hn : n ≤ P * b) (m phi phi' tilt : ℕ → ℕ → ℝ) (fill : ℝ) :
    ∑ i ∈ range P, ∑ j ∈ range P, subapImage (P * b) n b m phi tilt fill i j = ∑ i ∈ range P, ∑ j ∈ range P, subapImage (P * b) n b m phi' tilt fill i j := by
  rw [C87_conserved_partial P b n hP hb hn, C87_conserved_partial P b n hP hb hn]

/-- A sub-aperture of 2 × 2 elements on 2 × 2 pixels of 2 elements each: 16 × 4. -/
example (phi tilt : ℕ → ℕ → ℝ) : ∑ i ∈ range 2, ∑ j ∈ range 2, subapImage 4 2 2 (fun _ _ => 1) phi tilt 1 i j = 64 := by
  have := C87_conserved_partial 2 2 2 (by norm_num) (by norm_num) (by norm_num) (fun _ _ => 1) phi tilt 1
  norm_num at this
  exact this

/-- C87 as a user would state it: two sub-apertures get light in proportion to their lit parts (masks of zeros and ones, fill factors of these masks). -/
def C87_Statement : Prop :=
  ∀ (P b n : ℕ), 0 < P → 0 < b → 0 < n → n ≤ P * b → ∀ (m m' phi phi' tilt : ℕ → ℕ → ℝ), (∀ j k, m j k = 0 ∨ m j k = 1) → (∀ j k, m' j k = 0 ∨ m' j k = 1) →
    let fill := fun a : ℕ → ℕ → ℝ => (∑ j ∈ range n, ∑ k ∈ range n, a j k) / (n : ℝ) ^ 2
    (∑ i ∈ range P, ∑ j ∈ range P, subapImage (P * b) n b m phi tilt (fill m) i j) * fill m' =
      (∑ i ∈ range P, ∑ j ∈ range P, subapImage (P * b) n b m' phi' tilt (fill m') i j) * fill m

/-- **C87 (the square of the fill factor).** With a mask of zeros and ones the light is proportional to the *square* of the lit part: the mask takes the light away once (`chop_subaps_mask`), the fill factor a second time. -/
theorem C87_square (P b n : ℕ) (hP : 0 < P) (hb : 0 < b) (h0 : 0 < n) (hn : n ≤ P * b) (m phi tilt : ℕ → ℕ → ℝ) (hm : ∀ j k, m j k = 0 ∨ m j k = 1) (fill : ℝ)
    (hfill : fill = (∑ j ∈ range n, ∑ k ∈ range n, m j k) / (n : ℝ) ^ 2) :
    ∑ i ∈ range P, ∑ j ∈ range P, subapImage (P * b) n b m phi tilt fill i j = (((P * b : ℕ) : ℝ) * n) ^ 2 * fill ^ 2 := by
  rw [C87_conserved_partial P b n hP hb hn]
  have e : ∑ j ∈ range n, ∑ k ∈ range n, m j k ^ 2 = ∑ j ∈ range n, ∑ k ∈ range n, m j k := by
    refine sum_congr rfl fun j _ => sum_congr rfl fun k _ => ?_
    rcases hm j k with h | h <;> rw [h] <;> norm_num
  have hn' : (n : ℝ) ≠ 0 := by positivity
  rw [e, hfill]; field_simp

/-- A half-lit sub-aperture of 2 × 2 elements on 3 × 3 pixels gets a quarter of the light of a full one. -/
example (phi tilt : ℕ → ℕ → ℝ) : ∑ i ∈ range 3, ∑ j ∈ range 3, subapImage 3 2 1 (fun j _ => if j = 0 then 1 else 0) phi tilt (1 / 2) i j = 36 / 4 := by
  have := C87_square 3 1 2 (by norm_num) (by norm_num) (by norm_num) (by norm_num) (fun j _ => if j = 0 then 1 else 0) phi tilt (fun j _ => by by_cases hj : j = 0 <;> simp [hj]) (1 / 2) (by norm_num [sum_range_succ])
  norm_num at this ⊢
  exact this

/-- **C87 (violated).** A full and a half-lit sub-aperture of 2 × 2 elements: the light is 4 : 1, not 2 : 1. -/
theorem C87_violated : ¬ C87_Statement := by
  intro h
  have h1 := h 2 1 2 (by norm_num) (by norm_num) (by norm_num) (by norm_num) (fun _ _ => 1) (fun j _ => if j = 0 then 1 else 0) (fun _ _ => 0) (fun _ _ => 0) (fun _ _ => 0)
    (fun _ _ => Or.inr rfl) (fun j _ => by by_cases hj : j = 0 <;> simp [hj])
  simp only at h1
  rw [C87_conserved_partial 2 1 2 (by norm_num) (by norm_num) (by norm_num), C87_conserved_partial 2 1 2 (by norm_num) (by norm_num) (by norm_num)] at h1
  simp only [sum_range_succ, range_zero, sum_empty] at h1
  norm_num at h1

/-! ### C88 -/

theorem add_mod_perm (K : ℕ) (hK : 0 < K) (c : ℕ) (f : ℕ → ℝ) : ∑ s ∈ range K, f ((s + c) % K) = ∑ s ∈ range K, f s := by
  refine sum_nbij' (fun s => (s + c) % K) (fun s => (s + (K - c % K)) % K) (fun s _ => mem_range.mpr (Nat.mod_lt _ hK)) (fun s _ => mem_range.mpr (Nat.mod_lt _ hK)) ?_ ?_ (fun s _ => rfl)
  · intro s hs
    have hs := mem_range.mp hs
    have hc := Nat.mod_lt c hK
    simp only [Nat.mod_add_mod]
    rw [← Nat.div_add_mod c K, show s + (K * (c / K) + c % K) + (K - (K * (c / K) + c % K) % K) = s + K * (c / K + 1) by
      rw [Nat.mul_add_mod, Nat.mod_mod]; rw [Nat.mul_add]; omega, Nat.add_mul_mod_self_left, Nat.mod_eq_of_lt hs]
  · intro s hs
    have hs := mem_range.mp hs
    have hc := Nat.mod_lt c hK
    simp only [Nat.mod_add_mod]
    rw [← Nat.div_add_mod c K, show s + (K - (K * (c / K) + c % K) % K) + (K * (c / K) + c % K) = s + K * (c / K + 1) by
      rw [Nat.mul_add_mod, Nat.mod_mod]; rw [Nat.mul_add]; omega, Nat.add_mul_mod_self_left, Nat.mod_eq_of_lt hs]

/-- Light in the image of all slots, before binning. -/
theorem sum_pyrImage (K N : ℕ) (hK : 0 < K) (hN : 0 < N) (slots : ℕ → ℕ → ℕ → ℂ) (pyr : ℕ → ℕ → ℝ) :
    ∑ p ∈ range N, ∑ q ∈ range N, pyrImage K N slots pyr p q = ∑ s ∈ range K, ∑ j ∈ range N, ∑ k ∈ range N, Complex.normSq (slots s j k) := by
  have hN' : (N : ℝ) ≠ 0 := by positivity
  have one : ∀ x : ℕ, ∑ p ∈ range N, ∑ q ∈ range N, Complex.normSq (ifft2 N (fun u v => fft2 N (slots x) ((u + (N - N / 2)) % N) ((v + (N - N / 2)) % N) * cis (pyr u v)) p q) =
      ∑ j ∈ range N, ∑ k ∈ range N, Complex.normSq (slots x j k) := by
    intro x
    unfold ifft2
    simp only [Complex.normSq_div, ← sum_div]
    have h := parseval2 N N hN le_rfl (fun u v => fft2 N (slots x) ((u + (N - N / 2)) % N) ((v + (N - N / 2)) % N) * cis (pyr u v)) 1 (Or.inl rfl)
    simp only [one_mul] at h
    rw [h]
    simp only [Complex.normSq_mul, cis_normSq', mul_one]
    have e1 : ∑ u ∈ range N, ∑ v ∈ range N, Complex.normSq (fft2 N (slots x) ((u + (N - N / 2)) % N) ((v + (N - N / 2)) % N)) = ∑ u ∈ range N, ∑ v ∈ range N, Complex.normSq (fft2 N (slots x) u v) := by
      rw [add_mod_perm N hN (N - N / 2) fun u => ∑ v ∈ range N, Complex.normSq (fft2 N (slots x) u ((v + (N - N / 2)) % N))]
      exact sum_congr rfl fun u _ => add_mod_perm N hN (N - N / 2) fun v => Complex.normSq (fft2 N (slots x) u v)
    rw [e1]
    have h2 := parseval2 N N hN le_rfl (slots x) (-1) (Or.inr rfl)
    simp only [neg_one_mul] at h2
    simp only [fft2]
    rw [h2, map_pow, Complex.normSq_natCast]
    field_simp
  unfold pyrImage
  simp only [shift3]
  have sw : ∀ f : ℕ → ℕ → ℕ → ℝ, ∑ p ∈ range N, ∑ q ∈ range N, ∑ s ∈ range K, f s p q = ∑ s ∈ range K, ∑ p ∈ range N, ∑ q ∈ range N, f s p q := by
    intro f
    rw [sum_comm (s := range K)]
    exact sum_congr rfl fun p _ => sum_comm
  rw [sw]
  simp only [one]
  exact add_mod_perm K hK (K - K / 2) fun x => ∑ j ∈ range N, ∑ k ∈ range N, Complex.normSq (slots x j k)

/-- Light on the detector, whatever is in the slots. -/
theorem sum_pyrPlane (K P b num : ℕ) (hK : 0 < K) (hP : 0 < P) (hb : 0 < b) (slots : ℕ → ℕ → ℕ → ℂ) (pyr : ℕ → ℕ → ℝ) :
    ∑ i ∈ range P, ∑ j ∈ range P, pyrPlane K (P * b) b num slots pyr i j =
      (∑ s ∈ range K, ∑ j ∈ range (P * b), ∑ k ∈ range (P * b), Complex.normSq (slots s j k)) / (b : ℝ) ^ 2 / num := by
  unfold pyrPlane rebin
  simp only [← sum_div]
  rw [sum_binned, sum_pyrImage K (P * b) hK (Nat.mul_pos hP hb)]

theorem pyrField_normSq (m phi mod cen : ℕ → ℕ → ℝ) (x : ℝ) (j k : ℕ) : Complex.normSq (pyrField m phi mod cen x j k) = m j k ^ 2 := by
  rw [pyrField, Complex.normSq_mul, cis_normSq', mul_one, Complex.normSq_ofReal]; ring

/-- **C88 (what `intensity` does).** It multiplies the aberration: a frame of relative intensity `x` is the full frame of a wavefront `x` times as strong, and a frame of intensity zero is a bright, flat one. -/
theorem C88_intensity_phase (m phi mod cen : ℕ → ℕ → ℝ) (x : ℝ) (j k : ℕ) :
    pyrField m phi mod cen x j k = pyrField m (fun j k => x * phi j k) (fun j k => x * mod j k) (fun j k => x * cen j k) 1 j k ∧ pyrField m phi mod cen 0 j k = m j k := by
  constructor
  · unfold pyrField; congr 2; ring
  · rw [pyrField, mul_zero, zero_mul, cis_zero', mul_one]

/-- Half the intensity, a wavefront of height π: the field is `cis (π/2)` instead of `cis π`. -/
example : pyrField (fun _ _ => 1) (fun _ _ => Real.pi) (fun _ _ => 0) (fun _ _ => 0) (1 / 2) 0 0 = Complex.I := by
  rw [(C88_intensity_phase _ _ _ _ _ _ _).1, pyrField, cis, show (1 / 2 * Real.pi + 1 / 2 * 0 + 1 / 2 * 0) * 1 * 1 = Real.pi / 2 by ring]
  push_cast
  rw [Complex.exp_pi_div_two_mul_I]; simp

/-- **C88 (all slots written; partial).** With at least 32 modulation points (every slot of the FFT is written in every frame) the light on the detector is the light in the pupil, divided by the area of the binning:
it depends neither on the phase, nor on the modulation, nor on the pyramid, nor on the `intensity` of the frame.  Missing: fewer than 32 points, where slots that were not written add their light (C62). -/
theorem C88_conserved_partial (K P b : ℕ) (hK : 0 < K) (hP : 0 < P) (hb : 0 < b) (m phi cen pyr : ℕ → ℕ → ℝ) (mod : ℕ → ℕ → ℕ → ℝ) (x : ℝ) :
    ∑ i ∈ range P, ∑ j ∈ range P, pyrPlane K (P * b) b K (fun s => pyrField m phi (mod s) cen x) pyr i j =
      (∑ j ∈ range (P * b), ∑ k ∈ range (P * b), m j k ^ 2) / (b : ℝ) ^ 2 := by
  rw [sum_pyrPlane K P b K hK hP hb]
  simp only [pyrField_normSq, sum_const, card_range, nsmul_eq_mul]
  have : (K : ℝ) ≠ 0 := by positivity
  field_simp

/-- 32 points, 4 × 4 elements of which all are lit, binned by 2: 16 / 4. -/
example (phi pyr : ℕ → ℕ → ℝ) (mod : ℕ → ℕ → ℕ → ℝ) :
    ∑ i ∈ range 2, ∑ j ∈ range 2, pyrPlane 32 4 2 32 (fun s => pyrField (fun _ _ => 1) phi (mod s) (fun _ _ => 0) 1) pyr i j = 4 := by
  have := C88_conserved_partial 32 2 2 (by norm_num) (by norm_num) (by norm_num) (fun _ _ => 1) phi (fun _ _ => 0) pyr mod 1
  norm_num at this
  exact this

/-- **C88 (violated by unwritten slots).** With `num < K` points the light has a part from the slots that were not written. -/
theorem C88_slots_violated (K P b num : ℕ) (hnum : num < K) (h0 : 0 < num) (hP : 0 < P) (hb : 0 < b) (m phi cen pyr : ℕ → ℕ → ℝ) (mod : ℕ → ℕ → ℕ → ℝ) (x : ℝ) (stale : ℕ → ℕ → ℕ → ℂ) :
    ∑ i ∈ range P, ∑ j ∈ range P, pyrPlane K (P * b) b num (fun s => if s < num then pyrField m phi (mod s) cen x else stale s) pyr i j =
      (∑ j ∈ range (P * b), ∑ k ∈ range (P * b), m j k ^ 2) / (b : ℝ) ^ 2 +
      (∑ s ∈ Ico num K, ∑ j ∈ range (P * b), ∑ k ∈ range (P * b), Complex.normSq (stale s j k)) / (b : ℝ) ^ 2 / num := by
  rw [sum_pyrPlane K P b num (by omega) hP hb, range_eq_Ico, ← sum_Ico_consecutive _ (Nat.zero_le num) hnum.le]
  have e1 : ∑ s ∈ Ico 0 num, ∑ j ∈ range (P * b), ∑ k ∈ range (P * b), Complex.normSq ((if s < num then pyrField m phi (mod s) cen x else stale s) j k) =
      num * ∑ j ∈ range (P * b), ∑ k ∈ range (P * b), m j k ^ 2 := by
    rw [sum_congr rfl (g := fun _ => ∑ j ∈ range (P * b), ∑ k ∈ range (P * b), m j k ^ 2)]
    · simp
    · intro s hs
      rw [if_pos (mem_Ico.mp hs).2]
      simp only [pyrField_normSq]
  have e2 : ∑ s ∈ Ico num K, ∑ j ∈ range (P * b), ∑ k ∈ range (P * b), Complex.normSq ((if s < num then pyrField m phi (mod s) cen x else stale s) j k) =
      ∑ s ∈ Ico num K, ∑ j ∈ range (P * b), ∑ k ∈ range (P * b), Complex.normSq (stale s j k) := by
    refine sum_congr rfl fun s hs => ?_
    rw [if_neg (by have := (mem_Ico.mp hs).1; omega)]
  rw [e1, e2]
  have : (num : ℝ) ≠ 0 := by positivity
  have : (b : ℝ) ≠ 0 := by positivity
  field_simp

/-- **C88 (violated by `intensity`).** The light of a frame of relative intensity `x` should be `x` times the light of a frame of intensity one; it is the same. -/
theorem C88_intensity_violated : ¬ ∀ (K P b : ℕ), 0 < K → 0 < P → 0 < b → ∀ (m phi cen pyr : ℕ → ℕ → ℝ) (mod : ℕ → ℕ → ℕ → ℝ) (x : ℝ),
    ∑ i ∈ range P, ∑ j ∈ range P, pyrPlane K (P * b) b K (fun s => pyrField m phi (mod s) cen x) pyr i j =
      x * ∑ i ∈ range P, ∑ j ∈ range P, pyrPlane K (P * b) b K (fun s => pyrField m phi (mod s) cen 1) pyr i j := by
  intro h
  have h1 := h 32 1 1 (by norm_num) (by norm_num) (by norm_num) (fun _ _ => 1) (fun _ _ => 0) (fun _ _ => 0) (fun _ _ => 0) (fun _ _ _ => 0) (1 / 2)
  rw [C88_conserved_partial 32 1 1 (by norm_num) (by norm_num) (by norm_num), C88_conserved_partial 32 1 1 (by norm_num) (by norm_num) (by norm_num)] at h1
  norm_num at h1

end Soapy.Props
