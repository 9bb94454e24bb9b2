/-
Property theorems C119: the Strehl ratios and wavefront errors a science camera reports fit together.
-/
import Verif.Model.Report
import Verif.Props.Psf
import Verif.Props.Tools
import Mathlib.Analysis.SpecialFunctions.Trigonometric.Bounds
import Mathlib.Algebra.Order.Chebyshev

namespace Soapy.Props

open Soapy.Spot Soapy.Psf Soapy.Lemmas Soapy.Report Finset

/-! ### The centre of the image -/

private theorem focus_zero (N n : ℕ) (hn : n ≤ N) (e : ℕ → ℕ → ℂ) : focus N n e (0, 0) = ∑ j ∈ range n, ∑ k ∈ range n, e j k := by
  unfold focus
  simp only [Nat.cast_zero, zero_mul, add_zero, mul_zero, zero_div, neg_zero, cis_zero', mul_one]
  have hr := fun w : ℂ → ℝ => fun hw : w 0 = 0 => (sum_shift N fun p => w (placed N n e p)).trans (sum_placed N n hn e w hw)
  apply Complex.ext
  · simp only [Complex.re_sum]; exact hr Complex.re rfl
  · simp only [Complex.im_sum]; exact hr Complex.im rfl

private theorem normSq_pairs {ι : Type} (s : Finset ι) (w φ : ι → ℝ) :
    Complex.normSq (∑ i ∈ s, cis (φ i) * w i) = ∑ i ∈ s, ∑ j ∈ s, w i * w j * Real.cos (φ i - φ j) := by
  have hre : ∀ i, (cis (φ i) * (w i : ℂ)).re = w i * Real.cos (φ i) := by
    intro i; rw [Complex.re_mul_ofReal, cis, Complex.exp_ofReal_mul_I_re]; ring
  have him : ∀ i, (cis (φ i) * (w i : ℂ)).im = w i * Real.sin (φ i) := by
    intro i; rw [Complex.im_mul_ofReal, cis, Complex.exp_ofReal_mul_I_im]; ring
  rw [Complex.normSq_apply, Complex.re_sum, Complex.im_sum]
  simp only [hre, him]
  rw [sum_mul_sum, sum_mul_sum, ← sum_add_distrib]
  refine sum_congr rfl fun i _ => ?_
  rw [← sum_add_distrib]
  refine sum_congr rfl fun j _ => ?_
  rw [Real.cos_sub]; ring

/-- The elements of the aperture. -/
abbrev cells (n : ℕ) : Finset (ℕ × ℕ) := range n ×ˢ range n

private theorem sum_cells {M : Type} [AddCommMonoid M] (n : ℕ) (f : ℕ → ℕ → M) : ∑ j ∈ range n, ∑ k ∈ range n, f j k = ∑ p ∈ cells n, f p.1 p.2 :=
  (sum_product' (range n) (range n) f).symm

private theorem centre (N n : ℕ) (hn : n ≤ N) (m phi : ℕ → ℕ → ℝ) :
    intensity N n (field m phi) (N / 2) (N / 2) = ∑ p ∈ cells n, ∑ q ∈ cells n, m p.1 p.2 * m q.1 q.2 * Real.cos (phi p.1 p.2 - phi q.1 q.2) := by
  unfold intensity
  rw [shiftIdx_centre N, focus_zero N n hn, sum_cells n (field m phi)]
  exact normSq_pairs (cells n) (fun p => m p.1 p.2) fun p => phi p.1 p.2

private theorem raw_one (px n : ℕ) (e : ℕ → ℕ → ℂ) (i j : ℕ) : raw px n 0 1 e i j = intensity px n e i j := by
  simp [raw, binned, cropped]

private theorem total_one (n px : ℕ) (hpx : 0 < px) (hn : n ≤ px) (m phi : ℕ → ℕ → ℝ) :
    total px (raw px n 0 1 (field m phi)) = (px : ℝ) ^ 2 * ∑ j ∈ range n, ∑ k ∈ range n, m j k ^ 2 := by
  have h := total_raw n 1 px hpx Nat.one_pos (by omega) m phi
  rwa [Nat.mul_one] at h

private theorem light_one (n px : ℕ) (hpx : 0 < px) (m : ℕ → ℕ → ℝ) (hpos : 0 < ∑ j ∈ range n, ∑ k ∈ range n, m j k) : 0 < (px : ℝ) ^ 2 * ∑ j ∈ range n, ∑ k ∈ range n, m j k ^ 2 := by
  have h1 := light_pos n m hpos
  have : (0 : ℝ) < px := by exact_mod_cast hpx
  positivity

private theorem psfMax_one (n px : ℕ) (hpx : 0 < px) (hn : n ≤ px) (m : ℕ → ℕ → ℝ) (hm : ∀ j k, 0 ≤ m j k) (hpos : 0 < ∑ j ∈ range n, ∑ k ∈ range n, m j k) :
    psfMax px n 0 1 px hpx m = (∑ j ∈ range n, ∑ k ∈ range n, m j k) ^ 2 / ((px : ℝ) ^ 2 * ∑ j ∈ range n, ∑ k ∈ range n, m j k ^ 2) := by
  have h := C86_flat_centre_partial n px hpx hn m hm hpos 0
  rw [instStrehlTT] at h
  have h0 : psfMax px n 0 1 px hpx m ≠ 0 := by intro h0; rw [h0, div_zero] at h; norm_num at h
  rw [div_eq_one_iff_eq h0] at h
  rw [← h, unit, total_one n px hpx hn, raw_one, intensity_flat px n hn m 0]

/-! ### C119 -/

/-- **C119 (the Strehl ratio as a mean over pairs).** With tip-tilt, without oversampling and cropping, the reported Strehl ratio is the mean of the cosine of the phase differences over all pairs of lit elements. -/
theorem C119_pairs (n px : ℕ) (hpx : 0 < px) (hn : n ≤ px) (m phi : ℕ → ℕ → ℝ) (hm : ∀ j k, 0 ≤ m j k) (hpos : 0 < ∑ j ∈ range n, ∑ k ∈ range n, m j k) :
    instStrehlTT px n 0 1 px hpx m phi =
      (∑ p ∈ range n ×ˢ range n, ∑ q ∈ range n ×ˢ range n, m p.1 p.2 * m q.1 q.2 * Real.cos (phi p.1 p.2 - phi q.1 q.2)) / (∑ p ∈ range n ×ˢ range n, m p.1 p.2) ^ 2 := by
  have hL := light_one n px hpx m hpos
  rw [instStrehlTT, unit, total_one n px hpx hn, raw_one, psfMax_one n px hpx hn m hm hpos, centre px n hn, div_div_div_cancel_right₀ hL.ne', sum_cells]

private theorem wfe_sq (n : ℕ) (m phi : ℕ → ℕ → ℝ) (c : ℝ) (hc : c ≠ 0) (h01 : ∀ j k, m j k = 0 ∨ m j k = 1) (hpos : 0 < ∑ p ∈ cells n, m p.1 p.2) :
    (c * gridWfe n m phi c) ^ 2 = ((∑ p ∈ cells n, m p.1 p.2) * ∑ p ∈ cells n, m p.1 p.2 * phi p.1 p.2 ^ 2 - (∑ p ∈ cells n, m p.1 p.2 * phi p.1 p.2) ^ 2) / (∑ p ∈ cells n, m p.1 p.2) ^ 2 := by
  have conv : ∀ f : ℕ × ℕ → ℝ, ∑ p : Fin n × Fin n, f (p.1, p.2) = ∑ p ∈ cells n, f p := by
    intro f
    rw [Fintype.sum_prod_type, sum_product]
    rw [← Fin.sum_univ_eq_sum_range (fun i => ∑ j ∈ range n, f (i, j)) n]
    exact sum_congr rfl fun i _ => Fin.sum_univ_eq_sum_range (fun j => f (i, j)) n
  have hM := conv fun p => m p.1 p.2
  have hMP := conv fun p => m p.1 p.2 * phi p.1 p.2
  set M := ∑ p ∈ cells n, m p.1 p.2 with hMdef
  set A := ∑ p ∈ cells n, m p.1 p.2 * phi p.1 p.2 with hA
  have hpist : (∑ p : Fin n × Fin n, phi p.1 p.2 * m p.1 p.2 / c) = A / c := by
    rw [← hMP, sum_div]; exact sum_congr rfl fun p _ => by ring
  have hfl : ∀ p : Fin n × Fin n, Science.flattened (fun p : Fin n × Fin n => m p.1 p.2) (fun p => phi p.1 p.2) c p ^ 2 =
      (m p.1 p.2 * phi p.1 p.2 ^ 2 - 2 * (A / M) * (m p.1 p.2 * phi p.1 p.2) + (A / M) ^ 2 * m p.1 p.2) / c ^ 2 := by
    intro p
    have hM' : (∑ p : Fin n × Fin n, m p.1 p.2) = M := hM
    simp only [Science.flattened]
    rw [hpist, hM']
    have hsq : m p.1 p.2 ^ 2 = m p.1 p.2 := by rcases h01 p.1 p.2 with h | h <;> rw [h] <;> norm_num
    have : (phi p.1 p.2 * m p.1 p.2 / c - A / c / M * m p.1 p.2) ^ 2 = m p.1 p.2 ^ 2 * (phi p.1 p.2 - A / M) ^ 2 / c ^ 2 := by
      field_simp
    rw [this, hsq]; congr 1; ring
  have hsum : (∑ p : Fin n × Fin n, Science.flattened (fun p : Fin n × Fin n => m p.1 p.2) (fun p => phi p.1 p.2) c p ^ 2) =
      (∑ p ∈ cells n, m p.1 p.2 * phi p.1 p.2 ^ 2 - A ^ 2 / M) / c ^ 2 := by
    simp only [hfl]
    have h := conv fun p => (m p.1 p.2 * phi p.1 p.2 ^ 2 - 2 * (A / M) * (m p.1 p.2 * phi p.1 p.2) + (A / M) ^ 2 * m p.1 p.2) / c ^ 2
    simp only at h
    rw [h, ← sum_div, sum_add_distrib, sum_sub_distrib, ← mul_sum, ← mul_sum, ← hA, ← hMdef]
    congr 1
    field_simp
    ring
  have hM' : (∑ p : Fin n × Fin n, m p.1 p.2) = M := hM
  unfold gridWfe Science.wfe
  rw [mul_pow, Real.sq_sqrt (div_nonneg (sum_nonneg fun p _ => sq_nonneg _) (by rw [hM']; exact hpos.le)), hsum, hM']
  field_simp

private theorem pairs_sq {ι : Type} (s : Finset ι) (w φ : ι → ℝ) :
    ∑ i ∈ s, ∑ j ∈ s, w i * w j * ((φ i - φ j) ^ 2 / 2) = (∑ i ∈ s, w i) * ∑ i ∈ s, w i * φ i ^ 2 - (∑ i ∈ s, w i * φ i) ^ 2 := by
  have h : ∀ i j, w i * w j * ((φ i - φ j) ^ 2 / 2) = (w i * φ i ^ 2 * w j + w i * (w j * φ j ^ 2)) / 2 - w i * φ i * (w j * φ j) := by intro i j; ring
  simp only [h, sum_sub_distrib, ← sum_div, sum_add_distrib]
  simp only [← mul_sum, ← sum_mul]
  ring

private theorem pairs_one {ι : Type} (s : Finset ι) (w : ι → ℝ) : ∑ i ∈ s, ∑ j ∈ s, w i * w j = (∑ i ∈ s, w i) ^ 2 := by
  rw [sq, sum_mul_sum]

/-- **C119 (Strehl ratio and wavefront error).** The Strehl ratio with tip-tilt is at least `1 - σ²`, with `σ` the wavefront error of the sampled phase in radians, and the one without tip-tilt is at least as large;
so a low Strehl ratio implies a large wavefront error. -/
theorem C119_lower_partial (n px : ℕ) (hpx : 0 < px) (hn : n ≤ px) (m phi : ℕ → ℕ → ℝ) (h01 : ∀ j k, m j k = 0 ∨ m j k = 1) (hpos : 0 < ∑ j ∈ range n, ∑ k ∈ range n, m j k) (c : ℝ) (hc : c ≠ 0) :
    1 - (c * gridWfe n m phi c) ^ 2 ≤ instStrehlTT px n 0 1 px hpx m phi ∧ instStrehlTT px n 0 1 px hpx m phi ≤ instStrehl px n 0 1 px hpx m phi := by
  have hm : ∀ j k, 0 ≤ m j k := fun j k => by rcases h01 j k with h | h <;> rw [h]; norm_num
  have hpos' : 0 < ∑ p ∈ cells n, m p.1 p.2 := by rwa [← sum_cells n m]
  constructor
  · rw [C119_pairs n px hpx hn m phi hm hpos, wfe_sq n m phi c hc h01 hpos', ← pairs_sq (cells n) (fun p => m p.1 p.2) fun p => phi p.1 p.2, le_div_iff₀ (by positivity), sub_mul, one_mul,
      div_mul_cancel₀ _ (by positivity), ← pairs_one, ← sum_sub_distrib]
    refine sum_le_sum fun p _ => ?_
    rw [← sum_sub_distrib]
    refine sum_le_sum fun q _ => ?_
    have h1 := Real.one_sub_sq_div_two_le_cos (x := phi p.1 p.2 - phi q.1 q.2)
    have h2 := mul_nonneg (hm p.1 p.2) (hm q.1 q.2)
    nlinarith
  · rw [instStrehlTT, instStrehl]
    have hc := Nat.div_lt_self hpx (by norm_num : 1 < 2)
    refine div_le_div_of_nonneg_right (le_peak px hpx _ _ _ hc hc) ?_
    rw [psfMax_one n px hpx hn m hm hpos]
    exact div_nonneg (sq_nonneg _) (light_one n px hpx m hpos).le

/-- **C119 (a Strehl ratio of one).** With tip-tilt, the Strehl ratio is 1 exactly if the phase is the same, up to whole waves, at all lit elements. -/
theorem C119_one (n px : ℕ) (hpx : 0 < px) (hn : n ≤ px) (m phi : ℕ → ℕ → ℝ) (hm : ∀ j k, 0 ≤ m j k) (hpos : 0 < ∑ j ∈ range n, ∑ k ∈ range n, m j k) :
    instStrehlTT px n 0 1 px hpx m phi = 1 ↔
      ∀ j < n, ∀ k < n, ∀ j' < n, ∀ k' < n, 0 < m j k → 0 < m j' k' → ∃ w : ℤ, phi j k - phi j' k' = 2 * Real.pi * w := by
  have hpos' : 0 < ∑ p ∈ cells n, m p.1 p.2 := by rwa [← sum_cells n m]
  rw [C119_pairs n px hpx hn m phi hm hpos, div_eq_one_iff_eq (by positivity), ← pairs_one]
  have hnn : ∀ p q : ℕ × ℕ, 0 ≤ m p.1 p.2 * m q.1 q.2 - m p.1 p.2 * m q.1 q.2 * Real.cos (phi p.1 p.2 - phi q.1 q.2) := by
    intro p q
    have h1 := Real.cos_le_one (phi p.1 p.2 - phi q.1 q.2)
    have h2 := mul_nonneg (hm p.1 p.2) (hm q.1 q.2)
    nlinarith
  constructor
  · intro h j hj k hk j' hj' k' hk' h1 h2
    have h0 : ∑ p ∈ cells n, ∑ q ∈ cells n, (m p.1 p.2 * m q.1 q.2 - m p.1 p.2 * m q.1 q.2 * Real.cos (phi p.1 p.2 - phi q.1 q.2)) = 0 := by
      simp only [sum_sub_distrib]; rw [h, sub_self]
    have e1 := (sum_eq_zero_iff_of_nonneg fun p _ => sum_nonneg fun q _ => hnn p q).mp h0 (j, k) (mem_product.mpr ⟨mem_range.mpr hj, mem_range.mpr hk⟩)
    have e2 := (sum_eq_zero_iff_of_nonneg fun q _ => hnn (j, k) q).mp e1 (j', k') (mem_product.mpr ⟨mem_range.mpr hj', mem_range.mpr hk'⟩)
    simp only at e2
    have e3 : Real.cos (phi j k - phi j' k') = 1 := by
      have : m j k * m j' k' ≠ 0 := (mul_pos h1 h2).ne'
      have : m j k * m j' k' * (1 - Real.cos (phi j k - phi j' k')) = 0 := by linarith
      rcases mul_eq_zero.mp this with h | h
      · contradiction
      · linarith
    obtain ⟨w, hw⟩ := (Real.cos_eq_one_iff _).mp e3
    exact ⟨w, by rw [← hw]; ring⟩
  · intro h
    refine sum_congr rfl fun p hp => sum_congr rfl fun q hq => ?_
    rw [mem_product, mem_range, mem_range] at hp hq
    rcases (hm p.1 p.2).eq_or_lt with h1 | h1
    · rw [← h1]; ring
    rcases (hm q.1 q.2).eq_or_lt with h2 | h2
    · rw [← h2]; ring
    obtain ⟨w, hw⟩ := h _ hp.1 _ hp.2 _ hq.1 _ hq.2 h1 h2
    rw [hw, (Real.cos_eq_one_iff _).mpr ⟨w, by ring⟩, mul_one]

/-! Long exposures -/

private theorem total_long (n b px : ℕ) (hpx : 0 < px) (hb : 0 < b) (hn : n ≤ px * b) (m : ℕ → ℕ → ℝ) (phis : List (ℕ → ℕ → ℝ)) :
    total px (longRaw (px * b) n 0 b m phis) = phis.length * (((px * b : ℕ) : ℝ) ^ 2 * ∑ j ∈ range n, ∑ k ∈ range n, m j k ^ 2) := by
  induction phis with
  | nil => simp [total, longRaw]
  | cons p ps ih =>
    have e : total px (longRaw (px * b) n 0 b m (p :: ps)) = total px (raw (px * b) n 0 b (field m p)) + total px (longRaw (px * b) n 0 b m ps) := by
      simp only [total, longRaw, List.map_cons, List.sum_cons, sum_add_distrib]
    rw [e, ih, total_raw n b px hpx hb hn, List.length_cons]; push_cast; ring

private theorem unit_long (n b px : ℕ) (hpx : 0 < px) (hb : 0 < b) (hn : n ≤ px * b) (m : ℕ → ℕ → ℝ) (phis : List (ℕ → ℕ → ℝ)) (i j : ℕ) :
    unit px (longRaw (px * b) n 0 b m phis) i j = (phis.map fun phi => unit px (raw (px * b) n 0 b (field m phi)) i j).sum / phis.length := by
  have h : (phis.map fun phi => unit px (raw (px * b) n 0 b (field m phi)) i j).sum = longRaw (px * b) n 0 b m phis i j / (((px * b : ℕ) : ℝ) ^ 2 * ∑ j ∈ range n, ∑ k ∈ range n, m j k ^ 2) := by
    simp only [unit, total_raw n b px hpx hb hn, longRaw]
    induction phis with
    | nil => simp
    | cons p ps ih => rw [List.map_cons, List.sum_cons, ih, List.map_cons, List.sum_cons, add_div]
  rw [h, unit, total_long n b px hpx hb hn, div_div, mul_comm (phis.length : ℝ)]

/-- **C119 (long exposures).** Without cropping, the long-exposure Strehl ratio with tip-tilt is the mean of the frames' Strehl ratios, and the one without tip-tilt is at most their mean. -/
theorem C119_long_partial (n b px : ℕ) (hpx : 0 < px) (hb : 0 < b) (hn : n ≤ px * b) (m : ℕ → ℕ → ℝ) (phis : List (ℕ → ℕ → ℝ)) :
    longStrehlTT (px * b) n 0 b px hpx m phis = (phis.map fun phi => instStrehlTT (px * b) n 0 b px hpx m phi).sum / phis.length ∧
    longStrehl (px * b) n 0 b px hpx m phis ≤ (phis.map fun phi => instStrehl (px * b) n 0 b px hpx m phi).sum / phis.length := by
  have hd : ∀ (f : (ℕ → ℕ → ℝ) → ℝ) (y : ℝ), (phis.map f).sum / y = (phis.map fun p => f p / y).sum := by
    intro f y
    induction phis with
    | nil => simp
    | cons p ps ih => simp only [List.map_cons, List.sum_cons, add_div, ih]
  constructor
  · rw [longStrehlTT, unit_long n b px hpx hb hn]
    simp only [instStrehlTT]
    rw [div_right_comm, hd]
  · have hp0 : 0 ≤ psfMax (px * b) n 0 b px hpx m := by
      refine le_trans ?_ (le_peak px hpx _ 0 0 hpx hpx)
      refine div_nonneg ?_ ?_
      · unfold raw binned cropped
        exact sum_nonneg fun x _ => sum_nonneg fun y _ => intensity_nonneg _ _ _ _ _
      · rw [total_raw n b px hpx hb hn]; exact mul_nonneg (sq_nonneg _) (sum_nonneg fun j _ => sum_nonneg fun k _ => sq_nonneg _)
    have hmain : peak px hpx (unit px (longRaw (px * b) n 0 b m phis)) ≤ (phis.map fun phi => peak px hpx (unit px (raw (px * b) n 0 b (field m phi)))).sum / phis.length := by
      refine peak_le px hpx _ _ fun i hi j hj => ?_
      rw [unit_long n b px hpx hb hn]
      refine div_le_div_of_nonneg_right ?_ (Nat.cast_nonneg _)
      exact List.sum_le_sum fun phi _ => le_peak px hpx _ i j hi hj
    rw [longStrehl]
    refine (div_le_div_of_nonneg_right hmain hp0).trans (le_of_eq ?_)
    simp only [instStrehl]
    rw [div_right_comm, hd]

/-- So a long exposure has at least one minus the mean square of the frames' wavefront errors. -/
theorem C119_long_lower_partial (n px : ℕ) (hpx : 0 < px) (hn : n ≤ px) (m : ℕ → ℕ → ℝ) (h01 : ∀ j k, m j k = 0 ∨ m j k = 1) (hpos : 0 < ∑ j ∈ range n, ∑ k ∈ range n, m j k) (c : ℝ) (hc : c ≠ 0)
    (phis : List (ℕ → ℕ → ℝ)) (hne : phis ≠ []) :
    1 - (phis.map fun phi => (c * gridWfe n m phi c) ^ 2).sum / phis.length ≤ longStrehlTT px n 0 1 px hpx m phis ∧
    longStrehlTT px n 0 1 px hpx m phis ≤ longStrehl px n 0 1 px hpx m phis := by
  have hm : ∀ j k, 0 ≤ m j k := fun j k => by rcases h01 j k with h | h <;> rw [h]; norm_num
  have hlen : (0 : ℝ) < phis.length := by exact_mod_cast List.length_pos_iff.mpr hne
  constructor
  · have h := (C119_long_partial n 1 px hpx Nat.one_pos (by omega) m phis).1
    rw [Nat.mul_one] at h
    rw [h, le_div_iff₀ hlen, sub_mul, div_mul_cancel₀ _ hlen.ne', one_mul]
    clear h hne hlen
    induction phis with
    | nil => simp
    | cons p ps ih =>
      have h1 := (C119_lower_partial n px hpx hn m p h01 hpos c hc).1
      simp only [List.map_cons, List.sum_cons, List.length_cons]; push_cast; linarith
  · rw [longStrehlTT, longStrehl]
    have hc := Nat.div_lt_self hpx (by norm_num : 1 < 2)
    refine div_le_div_of_nonneg_right (le_peak px hpx _ _ _ hc hc) ?_
    rw [psfMax_one n px hpx hn m hm hpos]
    exact div_nonneg (sq_nonneg _) (light_one n px hpx m hpos).le

/-! Oversampled images -/

private theorem cis_sub_one_le (x : ℝ) : ‖cis x - 1‖ ≤ |x| := by
  rw [cis]
  have h := Real.norm_exp_I_mul_ofReal_sub_one_le (x := x)
  rw [mul_comm]; simpa using h

private theorem focus_diff (N n : ℕ) (hn : n ≤ N) (m phi : ℕ → ℕ → ℝ) (hm : ∀ j k, 0 ≤ m j k) (u : ℕ × ℕ) :
    ‖focus N n (field m phi) u - focus N n (field m fun _ _ => 0) u‖ ≤ ∑ p ∈ cells n, m p.1 p.2 * |phi p.1 p.2| := by
  have hpl : ∀ p, placed N n (field m phi) p - placed N n (field m fun _ _ => 0) p = placed N n (fun j k => (cis (phi j k) - 1) * m j k) p := by
    intro p
    unfold placed
    simp only
    split_ifs
    · rw [field, field, cis_zero']; ring
    · simp
  have hf : focus N n (field m phi) u - focus N n (field m fun _ _ => 0) u = focus N n (fun j k => (cis (phi j k) - 1) * m j k) u := by
    unfold focus
    rw [← sum_sub_distrib]
    refine sum_congr rfl fun j _ => ?_
    rw [← sum_sub_distrib]
    exact sum_congr rfl fun k _ => by rw [← hpl]; ring
  rw [hf]
  unfold focus
  refine (norm_sum_le _ _).trans ?_
  refine (sum_le_sum fun j _ => norm_sum_le _ _).trans ?_
  refine (sum_le_sum fun j _ => sum_le_sum fun k _ => (norm_mul _ _).le).trans ?_
  simp only [cis_norm', mul_one]
  rw [sum_shift N fun p => ‖placed N n (fun j k => (cis (phi j k) - 1) * m j k) p‖, sum_placed N n hn _ norm norm_zero, sum_cells n fun j k => ‖(cis (phi j k) - 1) * (m j k : ℂ)‖]
  refine sum_le_sum fun p _ => ?_
  rw [norm_mul, Complex.norm_real, Real.norm_eq_abs, abs_of_nonneg (hm p.1 p.2), mul_comm]
  exact mul_le_mul_of_nonneg_left (cis_sub_one_le _) (hm p.1 p.2)

/-- Sums of squares of numbers that are close: Cauchy and Schwarz. -/
private theorem squares_close {ι : Type} (s : Finset ι) (a b : ι → ℝ) (d S : ℝ) (ha : ∀ i ∈ s, 0 ≤ a i) (hb : ∀ i ∈ s, 0 ≤ b i) (hd : 0 ≤ d) (hab : ∀ i ∈ s, a i - d ≤ b i) (hS : 0 < S) (hle : S ^ 2 ≤ ∑ i ∈ s, a i ^ 2) (B : ℝ) (hB : 0 ≤ B) (hcard : (s.card : ℝ) = B ^ 2) :
    (∑ i ∈ s, a i ^ 2) * (1 - 2 * B * d / S) ≤ ∑ i ∈ s, b i ^ 2 := by
  set A := √(∑ i ∈ s, a i ^ 2) with hA
  have hA2 : A ^ 2 = ∑ i ∈ s, a i ^ 2 := Real.sq_sqrt (sum_nonneg fun i _ => sq_nonneg _)
  have hSA : S ≤ A := Real.le_sqrt_of_sq_le hle
  have hcs : ∑ i ∈ s, a i ≤ B * A := by
    have h := sq_sum_le_card_mul_sum_sq (s := s) (f := a)
    rw [hcard, ← hA2, ← mul_pow] at h
    exact (abs_le_of_sq_le_sq' h (mul_nonneg hB (hS.le.trans hSA))).2
  have hpt : ∑ i ∈ s, (a i ^ 2 - 2 * d * a i) ≤ ∑ i ∈ s, b i ^ 2 := by
    refine sum_le_sum fun i hi => ?_
    have h1 := ha i hi; have h2 := hb i hi; have h3 := hab i hi
    rcases le_total d (a i) with h | h
    · nlinarith
    · nlinarith [sq_nonneg (b i)]
  rw [sum_sub_distrib, ← mul_sum, ← hA2] at hpt
  rw [← hA2]
  refine le_trans ?_ hpt
  have h5 : 2 * d * ∑ i ∈ s, a i ≤ 2 * d * (B * A) := mul_le_mul_of_nonneg_left hcs (by positivity)
  have h6 : 2 * d * (B * A) ≤ A ^ 2 * (2 * B * d / S) := by
    rw [mul_div_assoc', le_div_iff₀ hS]
    have : 0 ≤ 2 * d * B * A := by have := hS.le.trans hSA; positivity
    nlinarith
  linarith

/-- **C119 (oversampled images).** With an oversampling of `b` and without cropping, the Strehl ratio (without tip-tilt) is at least `1 - 2 b σ`: close to one for a small wavefront error. -/
theorem C119_oversampled_partial (n b px : ℕ) (hpx : 0 < px) (hb : 0 < b) (hn : n ≤ px * b) (m phi : ℕ → ℕ → ℝ) (h01 : ∀ j k, m j k = 0 ∨ m j k = 1) (hpos : 0 < ∑ j ∈ range n, ∑ k ∈ range n, m j k) (c : ℝ)
    (hc : 0 < c) : 1 - 2 * b * (c * gridWfe n m phi c) ≤ instStrehl (px * b) n 0 b px hpx m phi := by
  have hm : ∀ j k, 0 ≤ m j k := fun j k => by rcases h01 j k with h | h <;> rw [h]; norm_num
  have hpos' : 0 < ∑ p ∈ cells n, m p.1 p.2 := by rwa [← sum_cells n m]
  have hσ := wfe_sq n m phi c hc.ne' h01 hpos'
  have hσ0 : 0 ≤ c * gridWfe n m phi c := mul_nonneg hc.le (Real.sqrt_nonneg _)
  set σ := c * gridWfe n m phi c with hσd
  set M := ∑ p ∈ cells n, m p.1 p.2 with hM
  set μ := (∑ p ∈ cells n, m p.1 p.2 * phi p.1 p.2) / M with hμ
  have hL : 0 < ((px * b : ℕ) : ℝ) ^ 2 * ∑ j ∈ range n, ∑ k ∈ range n, m j k ^ 2 := by
    have := light_pos n m hpos
    have : 0 < ((px * b : ℕ) : ℝ) := by exact_mod_cast Nat.mul_pos hpx hb
    positivity
  -- the phase without piston
  have hraw : raw (px * b) n 0 b (field m phi) = raw (px * b) n 0 b (field m fun j k => phi j k - μ) := by
    have h := raw_piston (px * b) n 0 b m phi (-μ)
    simp only [← sub_eq_add_neg] at h
    exact h.symm
  set d := ∑ p ∈ cells n, m p.1 p.2 * |phi p.1 p.2 - μ| with hd
  have hd0 : 0 ≤ d := sum_nonneg fun p _ => mul_nonneg (hm _ _) (abs_nonneg _)
  have hdσ : d ≤ M * σ := by
    have h1 : d ^ 2 ≤ M * ∑ p ∈ cells n, m p.1 p.2 * (phi p.1 p.2 - μ) ^ 2 := by
      have h := sum_mul_sq_le_sq_mul_sq (cells n) (fun p => m p.1 p.2) (fun p => m p.1 p.2 * |phi p.1 p.2 - μ|)
      have e : ∀ p : ℕ × ℕ, m p.1 p.2 ^ 2 = m p.1 p.2 := by intro p; rcases h01 p.1 p.2 with h | h <;> rw [h] <;> norm_num
      have e1 : ∀ p : ℕ × ℕ, m p.1 p.2 * (m p.1 p.2 * |phi p.1 p.2 - μ|) = m p.1 p.2 * |phi p.1 p.2 - μ| := by intro p; rw [← mul_assoc, ← sq, e]
      have e2 : ∀ p : ℕ × ℕ, (m p.1 p.2 * |phi p.1 p.2 - μ|) ^ 2 = m p.1 p.2 * (phi p.1 p.2 - μ) ^ 2 := by intro p; rw [mul_pow, e, sq_abs]
      simp only [e1, e2, e] at h
      exact h
    have h2 : M * ∑ p ∈ cells n, m p.1 p.2 * (phi p.1 p.2 - μ) ^ 2 = (M * σ) ^ 2 := by
      have e : ∀ p : ℕ × ℕ, m p.1 p.2 * (phi p.1 p.2 - μ) ^ 2 = m p.1 p.2 * phi p.1 p.2 ^ 2 - 2 * μ * (m p.1 p.2 * phi p.1 p.2) + μ ^ 2 * m p.1 p.2 := by intro p; ring
      simp only [e, sum_add_distrib, sum_sub_distrib, ← mul_sum]
      rw [mul_pow, hσ, ← hM, hμ]
      field_simp
      ring
    rw [h2] at h1
    exact (abs_le_of_sq_le_sq' h1 (by positivity)).2
  -- the brightest pixel of the perfect image
  obtain ⟨q, hq, hpk⟩ := exists_mem_eq_sup' (by simp [hpx.ne'] : (range px ×ˢ range px).Nonempty) fun p : ℕ × ℕ => unit px (raw (px * b) n 0 b (field m fun _ _ => 0)) p.1 p.2
  have hpk' : psfMax (px * b) n 0 b px hpx m = unit px (raw (px * b) n 0 b (field m fun _ _ => 0)) q.1 q.2 := hpk
  have hcen : px * b / 2 / b < px := by
    rw [Nat.div_lt_iff_lt_mul hb]
    exact Nat.div_lt_self (Nat.mul_pos hpx hb) (by norm_num)
  have hbright : M ^ 2 ≤ raw (px * b) n 0 b (field m fun _ _ => 0) q.1 q.2 := by
    have h1 := raw_flat_ge n b px hb hn m 0
    have h2 := le_peak px hpx (unit px (raw (px * b) n 0 b (field m fun _ _ => 0))) _ _ hcen hcen
    have h3 : peak px hpx (unit px (raw (px * b) n 0 b (field m fun _ _ => 0))) = unit px (raw (px * b) n 0 b (field m fun _ _ => 0)) q.1 q.2 := hpk
    rw [h3, unit, unit, total_raw n b px hpx hb hn, div_le_div_iff_of_pos_right hL] at h2
    rw [sum_cells n m] at h1
    exact h1.trans h2
  have blk : ∀ e : ℕ → ℕ → ℂ, raw (px * b) n 0 b e q.1 q.2 = ∑ x ∈ cells b, ‖focus (px * b) n e (shiftIdx (px * b) (x.1 + q.1 * b, x.2 + q.2 * b))‖ ^ 2 := by
    intro e
    unfold raw binned
    rw [sum_cells b fun x y => cropped 0 (intensity (px * b) n e) (x + q.1 * b) (y + q.2 * b)]
    refine sum_congr rfl fun x _ => ?_
    simp only [cropped, intensity, add_zero, Complex.normSq_eq_norm_sq]
  have hclose := squares_close (cells b) (fun x => ‖focus (px * b) n (field m fun _ _ => 0) (shiftIdx (px * b) (x.1 + q.1 * b, x.2 + q.2 * b))‖)
    (fun x => ‖focus (px * b) n (field m fun j k => phi j k - μ) (shiftIdx (px * b) (x.1 + q.1 * b, x.2 + q.2 * b))‖) d M (fun _ _ => norm_nonneg _) (fun _ _ => norm_nonneg _) hd0
    (fun x _ => by
      have h := focus_diff (px * b) n hn m (fun j k => phi j k - μ) hm (shiftIdx (px * b) (x.1 + q.1 * b, x.2 + q.2 * b))
      rw [norm_sub_rev] at h
      have h2 := norm_sub_norm_le (focus (px * b) n (field m fun _ _ => 0) (shiftIdx (px * b) (x.1 + q.1 * b, x.2 + q.2 * b))) (focus (px * b) n (field m fun j k => phi j k - μ) (shiftIdx (px * b) (x.1 + q.1 * b, x.2 + q.2 * b)))
      linarith) hpos' (by rw [← blk]; exact hbright) b (Nat.cast_nonneg _) (by simp [sq])
  rw [← blk, ← blk, ← hraw] at hclose
  have hpm : 0 < psfMax (px * b) n 0 b px hpx m := by
    rw [hpk', unit, total_raw n b px hpx hb hn]
    exact div_pos (lt_of_lt_of_le (by positivity) hbright) hL
  have hfin : 1 - 2 * b * d / M ≤ instStrehl (px * b) n 0 b px hpx m phi := by
    rw [mem_product, mem_range, mem_range] at hq
    rw [instStrehl, le_div_iff₀ hpm]
    refine le_trans ?_ (le_peak px hpx _ q.1 q.2 hq.1 hq.2)
    rw [hpk', unit, unit, total_raw n b px hpx hb hn, total_raw n b px hpx hb hn, mul_div_assoc', mul_comm]
    exact div_le_div_of_nonneg_right hclose hL.le
  refine le_trans ?_ hfin
  have h7 : 2 * (b : ℝ) * d / M ≤ 2 * b * σ := by
    rw [div_le_iff₀ hpos', mul_assoc, mul_assoc (2 * (b : ℝ)), mul_comm σ, mul_assoc] 
    have : (0 : ℝ) ≤ b := Nat.cast_nonneg _
    nlinarith
  linarith

/-! ### What is reported -/

/-- **C119 (the aperture).** An aperture of as many elements as the telescope has pixels is the pupil mask without its padding; `spl` passes through the pixels of an image. -/
theorem C119_mask (spl : Mirror.Arr2 → ℚ → ℚ → ℚ) (hs : ∀ (a : Mirror.Arr2) (i j : ℕ), i < a.rows → j < a.cols → spl a i j = a.px i j) (P pad : ℕ) (hP : 4 ≤ P) (mask : Mirror.Arr2)
    (h01 : ∀ i j, mask.px i j = 0 ∨ mask.px i j = 1) :
    ∃ z, scaledMask spl P pad P mask = .ok z ∧ z.rows = P ∧ z.cols = P ∧ ∀ i j, i < P → j < P → z.px i j = mask.px (pad + i) (pad + j) := by
  obtain ⟨z, hz, hpx⟩ := Tools.C64_same_size P hP (spl ⟨P, P, fun i j => mask.px (i + pad) (j + pad)⟩)
  have hsz : z.rows = P ∧ z.cols = P := by
    unfold Tools.zoom at hz
    rw [if_neg (by omega), if_neg (by simp)] at hz
    injection hz with hz
    injection hz with hz
    subst hz
    exact ⟨rfl, rfl⟩
  refine ⟨⟨z.rows, z.cols, fun i j => (pyRound (z.px i j) : ℚ)⟩, by unfold scaledMask; rw [hz]; rfl, hsz.1, hsz.2, fun i j hi hj => ?_⟩
  dsimp only
  rw [hpx i j hi hj, hs _ i j hi hj]
  dsimp only
  rw [Nat.add_comm i, Nat.add_comm j]
  have h0 : pyRound 0 = 0 := by decide +kernel
  have h1 : pyRound 1 = 1 := by decide +kernel
  rcases h01 (pad + i) (pad + j) with h | h <;> rw [h]
  · rw [h0]; rfl
  · rw [h1]; rfl

/-- Such a spline for whole coordinates: the nearest pixel. -/
example : ∃ z, scaledMask (fun a x y => a.px x.num.toNat y.num.toNat) 4 2 4 ⟨8, 8, fun i _ => if i = 2 then 1 else 0⟩ = .ok z ∧ z.rows = 4 ∧ z.px 0 1 = 1 ∧ z.px 1 1 = 0 := by
  obtain ⟨z, hz, hr, _, h⟩ := C119_mask (fun a x y => a.px x.num.toNat y.num.toNat) (fun a i j _ _ => by simp) 4 2 (by norm_num) ⟨8, 8, fun i _ => if i = 2 then 1 else 0⟩
    (fun i j => by dsimp only; split_ifs <;> simp)
  exact ⟨z, hz, hr, by rw [h 0 1 (by norm_num) (by norm_num)]; rfl, by rw [h 1 1 (by norm_num) (by norm_num)]; rfl⟩

/-- C119 as a user would state it: of the two reported numbers, one minus the Strehl ratio is at most the square of the wavefront error in radians. -/
def C119_Statement : Prop := ∀ (spl : Mirror.Arr2 → ℚ → ℚ → ℚ) (P pad k f px : ℕ) (hpx : 0 < px) (mask phase : Mirror.Arr2) (c S w : ℝ), 0 < c → 2 ≤ pad →
  (∀ i j, mask.px i j = 0 ∨ mask.px i j = 1) → mask.rows = P + 2 * pad → mask.cols = P + 2 * pad → phase.rows = P + 2 * pad → phase.cols = P + 2 * pad →
  reported spl P pad k f px hpx mask phase c = .ok (S, w) → 1 - S ≤ (c * w) ^ 2

/-- **C119 (violated between the grids).** The Strehl ratio is made from a phase sampled up to one pixel beyond the pupil: with half a wave in the row after a square pupil of four pixels, the wavefront error is 0 and the Strehl
ratio 9/25. -/
theorem C119_violated : ¬ C119_Statement := by
  intro h
  have hpx : 0 < 5 := by norm_num
  have hwaves : Plate.interpPhase ⟨8, 8, fun i _ => if i = 6 then 1 / 2 else 0⟩ 4 2 5 = .ok [[0, 0, 0, 0, 0], [0, 0, 0, 0, 0], [0, 0, 0, 0, 0], [0, 0, 0, 0, 0], [1 / 2, 1 / 2, 1 / 2, 1 / 2, 1 / 2]] := by decide +kernel
  have hr := h (fun _ _ _ => 1) 4 2 5 1 5 hpx ⟨8, 8, fun i j => if (2 ≤ i ∧ i < 6) ∧ (2 ≤ j ∧ j < 6) then 1 else 0⟩ ⟨8, 8, fun i _ => if i = 6 then 1 / 2 else 0⟩ 1 (9 / 25) 0 one_pos le_rfl
    (by intro i j; dsimp only; split_ifs <;> simp) rfl rfl rfl rfl ?_
  · norm_num at hr
  · have hsz : Science.sizes 5 4 5 1 = .ok ⟨5, 5, (0, 5), 0, 5⟩ := by decide +kernel
    have hmask : scaledMask (fun _ _ _ => 1) 4 2 5 ⟨8, 8, fun i j => if (2 ≤ i ∧ i < 6) ∧ (2 ≤ j ∧ j < 6) then 1 else 0⟩ = .ok ⟨5, 5, fun _ _ => 1⟩ := by
      have : pyRound 1 = 1 := by decide +kernel
      simp [scaledMask, Tools.zoom, Tools.clampEval, Except.bind, this]
    unfold reported
    rw [hsz]
    simp only [Except.bind]
    rw [hmask]
    simp only
    rw [hwaves]
    simp only
    congr 2
    · have hone : (fun _ _ : ℕ => ((1 : ℚ) : ℝ)) = fun _ _ => 1 := by norm_num
      rw [hone, C119_pairs 5 5 hpx le_rfl (fun _ _ => 1) _ (fun _ _ => zero_le_one) (by norm_num)]
      have hrow : ∀ p ∈ cells 5, (2 * Real.pi * (((([[0, 0, 0, 0, 0], [0, 0, 0, 0, 0], [0, 0, 0, 0, 0], [0, 0, 0, 0, 0], [1 / 2, 1 / 2, 1 / 2, 1 / 2, 1 / 2]] : List (List ℚ)).getD p.1 []).getD p.2 0 : ℚ) : ℝ)) = if p.1 = 4 then Real.pi else 0 := by
        intro p hp
        rw [mem_product, mem_range, mem_range] at hp
        obtain ⟨x, y⟩ := p
        obtain ⟨hx, hy⟩ := hp
        dsimp only at hx hy ⊢
        interval_cases x <;> interval_cases y <;> simp [List.getD] <;> ring
      have hcos : ∀ p ∈ cells 5, ∀ q ∈ cells 5, (1 : ℝ) * 1 * Real.cos ((2 * Real.pi * (((([[0, 0, 0, 0, 0], [0, 0, 0, 0, 0], [0, 0, 0, 0, 0], [0, 0, 0, 0, 0], [1 / 2, 1 / 2, 1 / 2, 1 / 2, 1 / 2]] : List (List ℚ)).getD p.1 []).getD p.2 0 : ℚ) : ℝ)) -
          (2 * Real.pi * (((([[0, 0, 0, 0, 0], [0, 0, 0, 0, 0], [0, 0, 0, 0, 0], [0, 0, 0, 0, 0], [1 / 2, 1 / 2, 1 / 2, 1 / 2, 1 / 2]] : List (List ℚ)).getD q.1 []).getD q.2 0 : ℚ) : ℝ))) =
          (if p.1 = 4 then -1 else 1) * (if q.1 = 4 then -1 else 1) := by
        intro p hp q hq
        rw [hrow p hp, hrow q hq]
        split_ifs <;> simp
      rw [sum_congr rfl fun p hp => sum_congr rfl fun q hq => hcos p hp q hq, ← sum_mul_sum, sum_product]
      norm_num [sum_range_succ]
    · unfold gridWfe Science.wfe
      have h0 : ∀ p : Fin 8 × Fin 8, (2 * Real.pi * (((if (p.1 : ℕ) = 6 then 1 / 2 else 0 : ℚ)) : ℝ)) * (((if (2 ≤ (p.1 : ℕ) ∧ (p.1 : ℕ) < 6) ∧ (2 ≤ (p.2 : ℕ) ∧ (p.2 : ℕ) < 6) then 1 else 0 : ℚ)) : ℝ) = 0 := by
        intro p
        by_cases h6 : (p.1 : ℕ) = 6
        · rw [if_neg (by omega : ¬ ((2 ≤ (p.1 : ℕ) ∧ (p.1 : ℕ) < 6) ∧ (2 ≤ (p.2 : ℕ) ∧ (p.2 : ℕ) < 6)))]; simp
        · rw [if_neg h6]; simp
      have hfl : ∀ p : Fin 8 × Fin 8, Science.flattened (fun p : Fin 8 × Fin 8 => (((if (2 ≤ (p.1 : ℕ) ∧ (p.1 : ℕ) < 6) ∧ (2 ≤ (p.2 : ℕ) ∧ (p.2 : ℕ) < 6) then 1 else 0 : ℚ)) : ℝ))
          (fun p => 2 * Real.pi * (((if (p.1 : ℕ) = 6 then 1 / 2 else 0 : ℚ)) : ℝ)) 1 p = 0 := by
        intro p
        simp only [Science.flattened, h0]
        simp
      rw [sum_congr rfl fun p _ => by rw [hfl p]]
      simp

/-! ### Examples -/

/-- A camera of six pixels and three elements with a hole in the middle of the pupil, a defocused frame: the hypotheses hold. -/
example : 1 - (2 * gridWfe 3 (fun j k => if j = 1 ∧ k = 1 then 0 else 1) (fun j k => (j : ℝ) ^ 2 + (k : ℝ) ^ 2) 2) ^ 2 ≤ instStrehlTT 6 3 0 1 6 (by norm_num) (fun j k => if j = 1 ∧ k = 1 then 0 else 1) (fun j k => (j : ℝ) ^ 2 + (k : ℝ) ^ 2) :=
  (C119_lower_partial 3 6 (by norm_num) (by norm_num) _ _ (fun j k => by split_ifs <;> simp) (by norm_num [sum_range_succ]) 2 (by norm_num)).1

/-- One element half a wave off, the other three in phase: Strehl ratio 1/4. -/
example : instStrehlTT 4 2 0 1 4 (by norm_num) (fun _ _ => 1) (fun j k => if j = 1 ∧ k = 1 then Real.pi else 0) = 1 / 4 := by
  rw [C119_pairs 2 4 (by norm_num) (by norm_num) _ _ (fun _ _ => zero_le_one) (by norm_num)]
  simp only [sum_product, sum_range_succ, sum_range_zero]
  norm_num

/-- A phase that differs by a whole wave: Strehl ratio 1. -/
example : instStrehlTT 4 2 0 1 4 (by norm_num) (fun _ _ => 1) (fun j _ => if j = 1 then 2 * Real.pi else 0) = 1 := by
  rw [C119_one 2 4 (by norm_num) (by norm_num) _ _ (fun _ _ => zero_le_one) (by norm_num)]
  intro j _ k _ j' _ k' _ _ _
  by_cases h1 : j = 1 <;> by_cases h2 : j' = 1
  · exact ⟨0, by rw [if_pos h1, if_pos h2]; simp⟩
  · exact ⟨1, by rw [if_pos h1, if_neg h2]; simp⟩
  · exact ⟨-1, by rw [if_neg h1, if_pos h2]; simp⟩
  · exact ⟨0, by rw [if_neg h1, if_neg h2]; simp⟩

/-- Two frames on an oversampled camera. -/
example : longStrehlTT (4 * 2) 3 0 2 4 (by norm_num) (fun _ _ => 1) [fun j _ => j, fun _ k => 2 * k] =
    (instStrehlTT (4 * 2) 3 0 2 4 (by norm_num) (fun _ _ => 1) (fun j _ => j) + (instStrehlTT (4 * 2) 3 0 2 4 (by norm_num) (fun _ _ => 1) (fun _ k => 2 * k) + 0)) / 2 :=
  (C119_long_partial 3 2 4 (by norm_num) (by norm_num) (by norm_num) (fun _ _ => 1) [fun j _ => j, fun _ k => 2 * k]).1

end Soapy.Props
