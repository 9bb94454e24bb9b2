/-
C81: a flat wavefront gives spots in the middle of the sub-apertures.  C82: tilt moves a spot, piston does not.
-/
import Verif.Model.Spot
import Verif.Props.Tools
import Mathlib.Analysis.SpecialFunctions.Trigonometric.Bounds

namespace Soapy.Props

open Soapy.Spot Soapy.Tools Finset

/-! ### Phase factors -/

theorem cis_add (a b : ℝ) : cis (a + b) = cis a * cis b := by
  simp [cis, add_mul, Complex.exp_add]

theorem cis_conj (a : ℝ) : (starRingEnd ℂ) (cis a) = cis (-a) := by
  rw [cis, cis, ← Complex.exp_conj]; simp

theorem cis_normSq (a : ℝ) : Complex.normSq (cis a) = 1 := by
  rw [Complex.normSq_eq_norm_sq, cis, Complex.norm_exp_ofReal_mul_I]; norm_num

theorem cis_int (m : ℤ) : cis (2 * Real.pi * m) = 1 := by
  rw [cis]
  push_cast
  rw [show (2 * (Real.pi : ℂ) * (m : ℂ) * Complex.I) = m * (2 * Real.pi * Complex.I) by ring]
  exact Complex.exp_int_mul_two_pi_mul_I m

/-- The Fourier sum without tilt correction. -/
noncomputable def four (nFft n : ℕ) (e : ℕ → ℕ → ℂ) (a b : ℝ) : ℂ :=
  ∑ j ∈ range n, ∑ k ∈ range n, e j k * cis (-(2 * Real.pi * (a * j + b * k) / nFft))

theorem four_period (nFft n : ℕ) (hN : 0 < nFft) (e : ℕ → ℕ → ℂ) (a b : ℝ) (c d : ℤ) :
    four nFft n e (a + c * nFft) (b + d * nFft) = four nFft n e a b := by
  have hN' : (nFft : ℝ) ≠ 0 := by positivity
  refine sum_congr rfl fun j _ => sum_congr rfl fun k _ => ?_
  rw [show -(2 * Real.pi * ((a + c * nFft) * j + (b + d * nFft) * k) / nFft) =
    -(2 * Real.pi * (a * j + b * k) / nFft) + 2 * Real.pi * ((-(c * j + d * k) : ℤ) : ℝ) by push_cast; field_simp; ring, cis_add, cis_int, mul_one]

theorem four_real (nFft n : ℕ) (m : ℕ → ℕ → ℝ) (a b : ℝ) :
    Complex.normSq (four nFft n (fun j k => m j k) (-a) (-b)) = Complex.normSq (four nFft n (fun j k => m j k) a b) := by
  rw [← Complex.normSq_conj (four nFft n (fun j k => m j k) a b)]
  congr 1
  simp only [four, map_sum]
  refine sum_congr rfl fun j _ => sum_congr rfl fun k _ => ?_
  rw [map_mul, cis_conj, Complex.conj_ofReal]
  congr 2; ring

/-- How far from frequency 0 the tilt correction moves the spot, times two. -/
noncomputable def shift (pxls nFft n : ℕ) (A : ℝ) : ℝ := if pxls % 2 = 0 then 2 * A * nFft / (Real.pi * ((n : ℝ) - 1)) else 0

theorem focal_four (pxls nFft n : ℕ) (A : ℝ) (hn : 2 ≤ n) (hN : 0 < nFft) (e : ℕ → ℕ → ℂ) (u v : ℝ) :
    Complex.normSq (focal nFft n e (tiltFix pxls n A) u v) =
      Complex.normSq (four nFft n e (u + shift pxls nFft n A / 2) (v + shift pxls nFft n A / 2)) := by
  have hN' : (nFft : ℝ) ≠ 0 := by positivity
  have hn' : (n : ℝ) - 1 ≠ 0 := by
    have : (2 : ℝ) ≤ n := by exact_mod_cast hn
    intro h; linarith
  have hpi := Real.pi_ne_zero
  by_cases hp : pxls % 2 = 0
  · have : focal nFft n e (tiltFix pxls n A) u v = cis (2 * A) * four nFft n e (u + shift pxls nFft n A / 2) (v + shift pxls nFft n A / 2) := by
      simp only [focal, four, mul_sum]
      refine sum_congr rfl fun j _ => sum_congr rfl fun k _ => ?_
      rw [mul_assoc, ← cis_add, mul_left_comm, ← cis_add]
      congr 2
      rw [tiltFix, if_pos hp, shift, if_pos hp, coord, coord, if_neg (by omega), if_neg (by omega)]
      field_simp
      ring
    rw [this, map_mul, cis_normSq, one_mul]
  · congr 1
    refine sum_congr rfl fun j _ => sum_congr rfl fun k _ => ?_
    rw [tiltFix, if_neg hp, shift, if_neg hp, show cis 0 = 1 by simp [cis], mul_one]
    congr 2; simp

/-- **C81 (where the spot is).** The image of a flat wavefront (any real transmission, so also a partly covered sub-aperture) is point symmetric about frequency `-shift / 2` on both axes. -/
theorem C81_symmetric_about (pxls nFft n : ℕ) (A : ℝ) (hn : 2 ≤ n) (hN : 0 < nFft) (m : ℕ → ℕ → ℝ) (u v : ℝ) :
    Complex.normSq (focal nFft n (fun j k => m j k) (tiltFix pxls n A) (-shift pxls nFft n A - u) (-shift pxls nFft n A - v)) =
      Complex.normSq (focal nFft n (fun j k => m j k) (tiltFix pxls n A) u v) := by
  rw [focal_four _ _ _ _ hn hN, focal_four _ _ _ _ hn hN, ← four_real nFft n m (u + _)]
  congr 2 <;> ring

/-! ### Positions after the shift -/

/-- Half the size as the code rounds it. -/
def half (n : ℕ) : ℕ := (pyRound ((n : ℚ) / 2)).toNat

theorem half_even (n : ℕ) (h : n % 2 = 0) : half n = n / 2 := (half_round n).2 h

theorem half_three (n : ℕ) (h : n % 4 = 3) : half n = (n + 1) / 2 := by
  obtain ⟨k, rfl⟩ : ∃ k, n = 4 * k + 3 := ⟨n / 4, by omega⟩
  have : ((4 * k + 3 : ℕ) : ℚ) / 2 = (((2 * k + 1 : ℕ) : ℤ) : ℚ) + 1 / 2 := by push_cast; ring
  rw [half, this, pyRound_half, if_neg (by omega)]
  omega

theorem half_one (n : ℕ) (h : n % 4 = 1) : half n = (n - 1) / 2 := by
  obtain ⟨k, rfl⟩ : ∃ k, n = 4 * k + 1 := ⟨n / 4, by omega⟩
  have : ((4 * k + 1 : ℕ) : ℚ) / 2 = (((2 * k : ℕ) : ℤ) : ℚ) + 1 / 2 := by push_cast; ring
  rw [half, this, pyRound_half, if_pos (by omega)]
  omega

theorem ftShiftIdx_freq (n p : ℕ) (hp : p < n) : ∃ c : ℤ, (ftShiftIdx n p : ℝ) = ((half n : ℝ) - 1 - p) + c * n := by
  have h := (half_round n).1
  have hl : half n ≤ n := h
  unfold ftShiftIdx
  change ∃ c : ℤ, (((if p < half n then half n - 1 - p else half n + (n - 1 - p) : ℕ) : ℕ) : ℝ) = _
  split_ifs with hlt
  · refine ⟨0, ?_⟩
    rw [Nat.sub_sub, Nat.cast_sub (by omega)]; push_cast; ring
  · refine ⟨1, ?_⟩
    rw [Nat.cast_add, Nat.sub_sub, Nat.cast_sub (by omega)]; push_cast; ring

theorem spot_four (pxls nFft n : ℕ) (A : ℝ) (hn : 2 ≤ n) (e : ℕ → ℕ → ℂ) (p q : ℕ) (hp : p < nFft) (hq : q < nFft) :
    spot nFft n e (tiltFix pxls n A) p q =
      Complex.normSq (four nFft n e ((half nFft : ℝ) - 1 - p + shift pxls nFft n A / 2) ((half nFft : ℝ) - 1 - q + shift pxls nFft n A / 2)) := by
  obtain ⟨c, hc⟩ := ftShiftIdx_freq nFft p hp
  obtain ⟨d, hd⟩ := ftShiftIdx_freq nFft q hq
  rw [spot, focal_four _ _ _ _ hn (by omega), hc, hd, add_right_comm _ (c * (nFft : ℝ)), add_right_comm _ (d * (nFft : ℝ)),
    four_period _ _ (by omega)]

/-- The image is point symmetric about the middle of the array. -/
def Centred (nFft : ℕ) (img : ℕ → ℕ → ℝ) : Prop := ∀ p q, p < nFft → q < nFft → img (nFft - 1 - p) (nFft - 1 - q) = img p q

/-- **C81 (sufficient condition).** The spot of a flat wavefront is centred, for every transmission, if the tilt correction moves it by what the shift leaves over: `2 * half - 1 - nFft` frequencies times two. -/
theorem C81_centred_partial (pxls nFft n : ℕ) (A : ℝ) (hn : 2 ≤ n) (m : ℕ → ℕ → ℝ) (h : shift pxls nFft n A = nFft + 1 - 2 * (half nFft : ℝ)) :
    Centred nFft (spot nFft n (fun j k => m j k) (tiltFix pxls n A)) := by
  intro p q hp hq
  rw [spot_four _ _ _ _ hn _ _ _ (by omega) (by omega), spot_four _ _ _ _ hn _ _ _ hp hq, ← four_real nFft n m]
  rw [Nat.sub_sub, Nat.sub_sub, Nat.cast_sub (by omega), Nat.cast_sub (by omega)]
  push_cast
  congr 2 <;> rw [h] <;> ring

/-! ### Fully illuminated sub-apertures -/

/-- One axis of the Fourier sum. -/
noncomputable def dir (nFft n : ℕ) (a : ℝ) : ℂ := ∑ k ∈ range n, cis (-(2 * Real.pi * (a * k) / nFft))

theorem four_full (nFft n : ℕ) (a b : ℝ) : four nFft n (fun _ _ => 1) a b = dir nFft n a * dir nFft n b := by
  rw [four, dir, dir, sum_mul_sum]
  refine sum_congr rfl fun j _ => sum_congr rfl fun k _ => ?_
  rw [one_mul, ← cis_add]
  congr 1; ring

theorem dir_normSq (nFft n : ℕ) (a : ℝ) :
    Complex.normSq (dir nFft n a) = ∑ j ∈ range n, ∑ k ∈ range n, Real.cos (2 * Real.pi * a * ((j : ℝ) - k) / nFft) := by
  have h : ((Complex.normSq (dir nFft n a) : ℝ) : ℂ) = ∑ j ∈ range n, ∑ k ∈ range n, cis (-(2 * Real.pi * a * ((j : ℝ) - k) / nFft)) := by
    rw [← Complex.mul_conj, dir, map_sum, sum_mul_sum]
    refine sum_congr rfl fun j _ => sum_congr rfl fun k _ => ?_
    rw [cis_conj, ← cis_add]
    congr 1; ring
  have h2 := congrArg Complex.re h
  rw [Complex.ofReal_re, Complex.re_sum] at h2
  rw [h2]
  refine sum_congr rfl fun j _ => ?_
  rw [Complex.re_sum]
  refine sum_congr rfl fun k _ => ?_
  rw [cis, Complex.exp_ofReal_mul_I_re, Real.cos_neg]

theorem dir_lt (nFft n : ℕ) (hn : 2 ≤ n) (hN : 0 < nFft) (a b : ℝ) (hab : |a| < |b|) (hb : 2 * ((n : ℝ) - 1) * |b| ≤ nFft) :
    Complex.normSq (dir nFft n b) < Complex.normSq (dir nFft n a) := by
  have hN' : (0 : ℝ) < nFft := by exact_mod_cast hN
  have hpi := Real.pi_pos
  rw [dir_normSq, dir_normSq]
  have habs : ∀ c : ℝ, ∀ j k : ℕ, Real.cos (2 * Real.pi * c * ((j : ℝ) - k) / nFft) = Real.cos (2 * Real.pi * |c| * |(j : ℝ) - k| / nFft) := by
    intro c j k
    rw [← Real.cos_abs, abs_div, abs_mul, abs_mul, abs_mul, abs_two, abs_of_pos hpi, abs_of_pos hN']
  have hterm : ∀ j k : ℕ, j < n → k < n → 2 * Real.pi * |b| * |(j : ℝ) - k| / nFft ≤ Real.pi := by
    intro j k hj hk
    have h1 : |(j : ℝ) - k| ≤ (n : ℝ) - 1 := by
      have hj' : (j : ℝ) + 1 ≤ n := by exact_mod_cast hj
      have hk' : (k : ℝ) + 1 ≤ n := by exact_mod_cast hk
      have : (0 : ℝ) ≤ j := Nat.cast_nonneg j
      have : (0 : ℝ) ≤ k := Nat.cast_nonneg k
      rw [abs_le]; constructor <;> linarith
    rw [div_le_iff₀ hN']
    have h2 : |b| * |(j : ℝ) - k| ≤ |b| * ((n : ℝ) - 1) := mul_le_mul_of_nonneg_left h1 (abs_nonneg b)
    nlinarith
  have hle : ∀ j k : ℕ, j < n → k < n → Real.cos (2 * Real.pi * b * ((j : ℝ) - k) / nFft) ≤ Real.cos (2 * Real.pi * a * ((j : ℝ) - k) / nFft) := by
    intro j k hj hk
    rw [habs, habs]
    refine Real.cos_le_cos_of_nonneg_of_le_pi (by positivity) (hterm j k hj hk) ?_
    gcongr
  refine sum_lt_sum (fun j hj => sum_le_sum fun k hk => hle j k (mem_range.mp hj) (mem_range.mp hk)) ⟨1, by simp; omega, ?_⟩
  refine sum_lt_sum (fun k hk => hle 1 k (by omega) (mem_range.mp hk)) ⟨0, by simp; omega, ?_⟩
  rw [habs, habs]
  refine Real.cos_lt_cos_of_nonneg_of_le_pi (by positivity) (hterm 1 0 (by omega) (by omega)) ?_
  simp only [Nat.cast_one, Nat.cast_zero, sub_zero, abs_one, mul_one]
  gcongr

theorem dir_zero_lt (nFft n r : ℕ) (hn : 2 ≤ n) (hr : 0 < r) (hrN : r < nFft) (c : ℝ) (hc : c = r ∨ c = -r) :
    Complex.normSq (dir nFft n c) < Complex.normSq (dir nFft n 0) := by
  have hN' : (0 : ℝ) < nFft := by exact_mod_cast (by omega : 0 < nFft)
  have hpi := Real.pi_pos
  rw [dir_normSq, dir_normSq]
  have hle : ∀ x y : ℕ, Real.cos (2 * Real.pi * c * ((x : ℝ) - y) / nFft) ≤ Real.cos (2 * Real.pi * 0 * ((x : ℝ) - y) / nFft) := by
    intro x y; simp only [mul_zero, zero_mul, zero_div, Real.cos_zero]; exact Real.cos_le_one _
  refine sum_lt_sum (fun j _ => sum_le_sum fun k _ => hle j k) ⟨1, by simp; omega, ?_⟩
  refine sum_lt_sum (fun k _ => hle 1 k) ⟨0, by simp; omega, ?_⟩
  simp only [mul_zero, zero_div, Real.cos_zero, Nat.cast_one, Nat.cast_zero, sub_zero, mul_one]
  refine lt_of_le_of_ne (Real.cos_le_one _) fun h => ?_
  have hcos : Real.cos (2 * Real.pi * r / nFft) = 1 := by
    rcases hc with rfl | rfl
    · exact h
    · rw [← h, ← Real.cos_neg]; congr 1; ring
  have hr' : (0 : ℝ) < r := by exact_mod_cast hr
  have hrN' : (r : ℝ) < nFft := by exact_mod_cast hrN
  rw [Real.cos_eq_one_iff_of_lt_of_lt] at hcos
  · have : 0 < 2 * Real.pi * r / nFft := by positivity
    linarith
  · have : 0 < 2 * Real.pi * r / nFft := by positivity
    linarith
  · rw [div_lt_iff₀ hN']
    have : 0 < 2 * Real.pi := by positivity
    exact mul_lt_mul_of_pos_left hrN' this

/-- What the shift leaves over. -/
noncomputable def rest (nFft : ℕ) : ℝ := nFft + 1 - 2 * (half nFft : ℝ)

theorem full_centred (pxls nFft n : ℕ) (A : ℝ) (hn : 2 ≤ n) (hh : 1 ≤ half nFft) (hN : 2 ≤ nFft)
    (h : Centred nFft (spot nFft n (fun _ _ => 1) (tiltFix pxls n A))) :
    Complex.normSq (dir nFft n (shift pxls nFft n A / 2)) = Complex.normSq (dir nFft n (shift pxls nFft n A / 2 - rest nFft)) := by
  have hl : half nFft ≤ nFft := (half_round nFft).1
  have := h (half nFft - 1) (half nFft - 1) (by omega) (by omega)
  rw [spot_four _ _ _ _ hn _ _ _ (by omega) (by omega), spot_four _ _ _ _ hn _ _ _ (by omega) (by omega), four_full, four_full, map_mul, map_mul] at this
  rw [show nFft - 1 - (half nFft - 1) = nFft - half nFft by omega, Nat.cast_sub hl, Nat.cast_sub hh] at this
  push_cast at this
  have e1 : (half nFft : ℝ) - 1 - (nFft - half nFft) + shift pxls nFft n A / 2 = shift pxls nFft n A / 2 - rest nFft := by rw [rest]; ring
  have e2 : (half nFft : ℝ) - 1 - (half nFft - 1) + shift pxls nFft n A / 2 = shift pxls nFft n A / 2 := by ring
  rw [e1, e2] at this
  have h1 := Complex.normSq_nonneg (dir nFft n (shift pxls nFft n A / 2))
  have h2 := Complex.normSq_nonneg (dir nFft n (shift pxls nFft n A / 2 - rest nFft))
  nlinarith [mul_self_inj h1 h2]

/-- **C81 (odd number of pixels).** No tilt is added.  A fully illuminated sub-aperture gives a centred spot exactly if the size of the FFT is 3 modulo 4; then the spot is centred for every transmission. -/
theorem C81_odd (pxls nFft n : ℕ) (A : ℝ) (hp : pxls % 2 = 1) (hn : 2 ≤ n) (hN : n ≤ nFft) :
    (Centred nFft (spot nFft n (fun _ _ => 1) (tiltFix pxls n A)) ↔ nFft % 4 = 3) ∧
    (nFft % 4 = 3 → ∀ m : ℕ → ℕ → ℝ, Centred nFft (spot nFft n (fun j k => m j k) (tiltFix pxls n A))) := by
  have hs : shift pxls nFft n A = 0 := by rw [shift, if_neg (by omega)]
  have hback : nFft % 4 = 3 → ∀ m : ℕ → ℕ → ℝ, Centred nFft (spot nFft n (fun j k => m j k) (tiltFix pxls n A)) := by
    intro h m
    refine C81_centred_partial _ _ _ _ hn m ?_
    rw [hs, half_three nFft h]
    obtain ⟨k, rfl⟩ : ∃ k, nFft = 4 * k + 3 := ⟨nFft / 4, by omega⟩
    rw [show (4 * k + 3 + 1) / 2 = 2 * k + 2 by omega]; push_cast; ring
  refine ⟨⟨fun h => ?_, fun h => by simpa using hback h fun _ _ => 1⟩, hback⟩
  by_contra hne
  have hcases : nFft % 2 = 0 ∨ nFft % 4 = 1 := by omega
  rcases hcases with h2 | h1
  · have hh := half_even nFft h2
    have key := full_centred pxls nFft n A hn (by omega) (by omega) h
    have hrest : rest nFft = ((1 : ℕ) : ℝ) := by
      obtain ⟨k, rfl⟩ := Nat.dvd_of_mod_eq_zero h2
      rw [rest, hh, Nat.mul_div_cancel_left _ (by norm_num)]; push_cast; ring
    rw [hs, hrest, zero_div, zero_sub] at key
    exact absurd key (ne_of_gt (dir_zero_lt nFft n 1 hn (by omega) (by omega) _ (Or.inr rfl)))
  · have hh := half_one nFft h1
    have key := full_centred pxls nFft n A hn (by omega) (by omega) h
    have hrest : rest nFft = ((2 : ℕ) : ℝ) := by
      obtain ⟨k, rfl⟩ : ∃ k, nFft = 4 * k + 1 := ⟨nFft / 4, by omega⟩
      rw [rest, hh, show (4 * k + 1 - 1) / 2 = 2 * k by omega]; push_cast; ring
    rw [hs, hrest, zero_div, zero_sub] at key
    exact absurd key (ne_of_gt (dir_zero_lt nFft n 2 hn (by omega) (by omega) _ (Or.inr rfl)))

/-- Twice the displacement in FFT elements: `over * fov * diam / wavelength` over `n - 1`. -/
theorem shift_amp (pxls nFft n over : ℕ) (fov diam lam : ℝ) (hp : pxls % 2 = 0) (hN : 0 < nFft) :
    shift pxls nFft n (tiltAmp over fov diam lam nFft) = over * (fov * diam / lam) / ((n : ℝ) - 1) := by
  have hN' : (nFft : ℝ) ≠ 0 := by positivity
  have hpi := Real.pi_ne_zero
  rw [shift, if_pos hp, tiltAmp]
  field_simp

/-- **C81 (even number of pixels).** A fully illuminated sub-aperture gives a centred spot exactly if `over * fov * diam / wavelength = n - 1`; then the spot is centred for every transmission.  (The code makes `n` the rounded left side.) -/
theorem C81_even (pxls nFft n over : ℕ) (fov diam lam : ℝ) (hp : pxls % 2 = 0) (hN2 : nFft % 2 = 0) (hn : 2 ≤ n) (hN : n ≤ nFft)
    (h0 : 0 ≤ over * (fov * diam / lam)) (h1 : over * (fov * diam / lam) ≤ nFft) (h2 : 2 * ((n : ℝ) - 1) - over * (fov * diam / lam) ≤ nFft) :
    (Centred nFft (spot nFft n (fun _ _ => 1) (tiltFix pxls n (tiltAmp over fov diam lam nFft))) ↔ over * (fov * diam / lam) = (n : ℝ) - 1) ∧
    (over * (fov * diam / lam) = (n : ℝ) - 1 → ∀ m : ℕ → ℕ → ℝ,
      Centred nFft (spot nFft n (fun j k => m j k) (tiltFix pxls n (tiltAmp over fov diam lam nFft)))) := by
  have hs := shift_amp pxls nFft n over fov diam lam hp (by omega)
  set x := over * (fov * diam / lam) with hx
  have hn1 : (0 : ℝ) < (n : ℝ) - 1 := by
    have : (2 : ℝ) ≤ n := by exact_mod_cast hn
    linarith
  have hh := half_even nFft hN2
  have hrest : rest nFft = 1 := by
    obtain ⟨k, rfl⟩ := Nat.dvd_of_mod_eq_zero hN2
    rw [rest, hh, Nat.mul_div_cancel_left _ (by norm_num)]; push_cast; ring
  have hback : x = (n : ℝ) - 1 → ∀ m : ℕ → ℕ → ℝ,
      Centred nFft (spot nFft n (fun j k => m j k) (tiltFix pxls n (tiltAmp over fov diam lam nFft))) := by
    intro h m
    refine C81_centred_partial _ _ _ _ hn m ?_
    have : shift pxls nFft n (tiltAmp over fov diam lam nFft) = rest nFft := by
      rw [hs, h, hrest]; field_simp
    rw [this, rest]
  refine ⟨⟨fun h => ?_, fun h => by simpa using hback h fun _ _ => 1⟩, hback⟩
  have key := full_centred _ _ _ _ hn (by omega) (by omega) h
  rw [hs, hrest] at key
  have hmul1 : 2 * ((n : ℝ) - 1) * |x / ((n : ℝ) - 1) / 2| ≤ nFft := by
    rw [abs_of_nonneg (by positivity)]
    have : 2 * ((n : ℝ) - 1) * (x / ((n : ℝ) - 1) / 2) = x := by field_simp
    rw [this]; exact h1
  have hmul2 : 2 * ((n : ℝ) - 1) * |x / ((n : ℝ) - 1) / 2 - 1| ≤ nFft := by
    have : 2 * ((n : ℝ) - 1) * |x / ((n : ℝ) - 1) / 2 - 1| = |x - 2 * ((n : ℝ) - 1)| := by
      rw [show x - 2 * ((n : ℝ) - 1) = 2 * ((n : ℝ) - 1) * (x / ((n : ℝ) - 1) / 2 - 1) by field_simp, abs_mul, abs_of_pos (by positivity : 0 < 2 * ((n : ℝ) - 1))]
    rw [this, abs_le]; constructor <;> linarith
  rcases lt_trichotomy |x / ((n : ℝ) - 1) / 2| |x / ((n : ℝ) - 1) / 2 - 1| with hlt | heq | hgt
  · exact absurd key (ne_of_gt (dir_lt nFft n hn (by omega) _ _ hlt hmul2))
  · rcases abs_eq_abs.mp heq with e | e
    · linarith
    · have : x / ((n : ℝ) - 1) = 1 := by linarith
      rw [div_eq_one_iff_eq (ne_of_gt hn1)] at this; exact this
  · exact absurd key (ne_of_lt (dir_lt nFft n hn (by omega) _ _ hgt hmul1))

/-- **C81 is violated by every configuration with a field stop** and an even number of pixels (at least two elements per sub-aperture, FFT not smaller than the field): the half-pixel correction uses `n - 1` steps for `n` elements. -/
theorem C81_field_stop_violated (pxls nFft n : ℕ) (fov diam lam : ℝ) (r : ℚ) (hr : fov * diam / lam = r) (hnr : (n : ℤ) = nxInterp 1 r)
    (hp : pxls % 2 = 0) (hN2 : nFft % 2 = 0) (hn : 2 ≤ n) (hN : n ≤ nFft) (h1 : (r : ℝ) ≤ nFft) :
    ¬ Centred nFft (spot nFft n (fun _ _ => 1) (tiltFix pxls n (tiltAmp 1 fov diam lam nFft))) := by
  have hc := pyRound_close r
  have hnq : (n : ℚ) = pyRound r := by
    have : (n : ℤ) = pyRound r := by rw [hnr, nxInterp]; simp
    exact_mod_cast this
  rw [← hnq, abs_le] at hc
  have hlo : (n : ℝ) - 1 / 2 ≤ r := by
    have : (n : ℚ) - 1 / 2 ≤ r := by linarith
    have h3 : (((n : ℚ) - 1 / 2 : ℚ) : ℝ) ≤ (r : ℝ) := Rat.cast_le.mpr this
    push_cast at h3
    exact h3
  have hnR : (2 : ℝ) ≤ n := by exact_mod_cast hn
  have hNR : (n : ℝ) ≤ nFft := by exact_mod_cast hN
  have := (C81_even pxls nFft n 1 fov diam lam hp hN2 hn hN (by rw [hr]; push_cast; linarith) (by rw [hr]; push_cast; linarith)
    (by rw [hr]; push_cast; linarith)).1
  rw [this, hr]
  push_cast
  intro h; linarith

/-- A field stop, two pixels, two elements per sub-aperture padded to four. -/
example : ¬ Centred 4 (spot 4 2 (fun _ _ => 1) (tiltFix 2 2 (tiltAmp 1 2 1 1 4))) :=
  C81_field_stop_violated 2 4 2 2 1 1 2 (by norm_num) (by decide +kernel) rfl rfl (by norm_num) (by norm_num) (by norm_num)

/-- Without a field stop it works exactly at the rounding limit: 1.5 elements wanted, rounded to 2, made 4. -/
example : nxInterp 2 (3 / 2) = 4 ∧ (2 : ℚ) * (3 / 2) = 4 - 1 := by decide +kernel

/-! ### The detector -/

/-- **C81 (binning).** A centred image stays centred when it is binned. -/
theorem C81_binned (b P : ℕ) (img : ℕ → ℕ → ℝ) (h : Centred (P * b) img) : Centred P (binned b img) := by
  intro i j hi hj
  unfold binned
  have hidx : ∀ i x, i < P → x < b → P * b - 1 - (x + i * b) = (b - 1 - x) + (P - 1 - i) * b ∧ x + i * b < P * b := by
    intro i x hi hx
    obtain ⟨d, rfl⟩ : ∃ d, P = i + 1 + d := ⟨P - i - 1, by omega⟩
    have : i + 1 + d - 1 - i = d := by omega
    rw [this]
    have e : (i + 1 + d) * b = i * b + b + d * b := by ring
    rw [e]; omega
  rw [← sum_range_reflect]
  refine sum_congr rfl fun x hx => ?_
  rw [← sum_range_reflect]
  refine sum_congr rfl fun y hy => ?_
  obtain ⟨e1, l1⟩ := hidx i x hi (mem_range.mp hx)
  obtain ⟨e2, l2⟩ := hidx j y hj (mem_range.mp hy)
  rw [← e1, ← e2]
  exact h _ _ l1 l2

/-- **C81 (centre of gravity).** The centre of gravity of a centred image is the middle of the array, on both axes. -/
theorem C81_centroid (P : ℕ) (img : ℕ → ℕ → ℝ) (h : Centred P img) :
    ∑ i ∈ range P, ∑ j ∈ range P, (i : ℝ) * img i j = ((P : ℝ) - 1) / 2 * ∑ i ∈ range P, ∑ j ∈ range P, img i j ∧
    ∑ i ∈ range P, ∑ j ∈ range P, (j : ℝ) * img i j = ((P : ℝ) - 1) / 2 * ∑ i ∈ range P, ∑ j ∈ range P, img i j := by
  have hcast : ∀ i, i < P → ((P - 1 - i : ℕ) : ℝ) = (P : ℝ) - 1 - i := by
    intro i hi; rw [Nat.sub_sub, Nat.cast_sub (by omega)]; push_cast; ring
  constructor
  · have e : ∑ i ∈ range P, ∑ j ∈ range P, (i : ℝ) * img i j = ∑ i ∈ range P, ∑ j ∈ range P, ((P : ℝ) - 1 - i) * img i j := by
      rw [← sum_range_reflect]
      refine sum_congr rfl fun i hi => ?_
      rw [← sum_range_reflect]
      refine sum_congr rfl fun j hj => ?_
      rw [h i j (mem_range.mp hi) (mem_range.mp hj), hcast i (mem_range.mp hi)]
    have e2 : ∑ i ∈ range P, ∑ j ∈ range P, ((P : ℝ) - 1 - i) * img i j =
        ((P : ℝ) - 1) * ∑ i ∈ range P, ∑ j ∈ range P, img i j - ∑ i ∈ range P, ∑ j ∈ range P, (i : ℝ) * img i j := by
      simp only [sub_mul _ _ (img _ _), sum_sub_distrib, mul_sum]
    linarith
  · have e : ∑ i ∈ range P, ∑ j ∈ range P, (j : ℝ) * img i j = ∑ i ∈ range P, ∑ j ∈ range P, ((P : ℝ) - 1 - j) * img i j := by
      rw [← sum_range_reflect]
      refine sum_congr rfl fun i hi => ?_
      rw [← sum_range_reflect]
      refine sum_congr rfl fun j hj => ?_
      rw [h i j (mem_range.mp hi) (mem_range.mp hj), hcast j (mem_range.mp hj)]
    have e2 : ∑ i ∈ range P, ∑ j ∈ range P, ((P : ℝ) - 1 - j) * img i j =
        ((P : ℝ) - 1) * ∑ i ∈ range P, ∑ j ∈ range P, img i j - ∑ i ∈ range P, ∑ j ∈ range P, (j : ℝ) * img i j := by
      simp only [sub_mul _ _ (img _ _), sum_sub_distrib, mul_sum]
    linarith

example : Centred 2 (fun i j => ((i * j + (1 - i) * (1 - j) : ℕ) : ℝ)) := by
  intro p q hp hq
  obtain rfl | rfl : p = 0 ∨ p = 1 := by omega
  all_goals obtain rfl | rfl : q = 0 ∨ q = 1 := by omega
  all_goals simp

/-! ### C82: piston and tilt -/

/-- **C82 (piston).** A constant phase changes no image. -/
theorem C82_piston (nFft n : ℕ) (e : ℕ → ℕ → ℂ) (tilt : ℕ → ℕ → ℝ) (c : ℝ) (p q : ℕ) :
    spot nFft n (fun j k => e j k * cis c) tilt p q = spot nFft n e tilt p q := by
  have : ∀ u v, focal nFft n (fun j k => e j k * cis c) tilt u v = cis c * focal nFft n e tilt u v := by
    intro u v
    simp only [focal, mul_sum]
    exact sum_congr rfl fun j _ => sum_congr rfl fun k _ => by ring
  rw [spot, spot, this, map_mul, cis_normSq, one_mul]

theorem focal_tilt (nFft n : ℕ) (hN : 0 < nFft) (e : ℕ → ℕ → ℂ) (tilt : ℕ → ℕ → ℝ) (a b u v : ℝ) :
    focal nFft n (fun j k => e j k * cis (2 * Real.pi * (a * j + b * k) / nFft)) tilt u v = focal nFft n e tilt (u - a) (v - b) := by
  have hN' : (nFft : ℝ) ≠ 0 := by positivity
  refine sum_congr rfl fun j _ => sum_congr rfl fun k _ => ?_
  have : cis (-(2 * Real.pi * ((u - a) * j + (v - b) * k) / nFft)) = cis (2 * Real.pi * (a * j + b * k) / nFft) * cis (-(2 * Real.pi * (u * j + v * k) / nFft)) := by
    rw [← cis_add]; congr 1; ring
  rw [this]; ring

theorem focal_period (nFft n : ℕ) (hN : 0 < nFft) (e : ℕ → ℕ → ℂ) (tilt : ℕ → ℕ → ℝ) (u v : ℝ) (c d : ℤ) :
    focal nFft n e tilt (u + c * nFft) (v + d * nFft) = focal nFft n e tilt u v :=
  four_period nFft n hN (fun j k => e j k * cis (tilt j k)) u v c d

/-- **C82 (tilt).** A tilt of `a` and `b` FFT elements (`2 π a / nFft` from one element of the field to the next) moves the image by exactly `a` and `b` pixels towards the origin, cyclically, and changes nothing else; any field, any size. -/
theorem C82_tilt (nFft n : ℕ) (e : ℕ → ℕ → ℂ) (tilt : ℕ → ℕ → ℝ) (a b : ℤ) (p q p' q' : ℕ) (hp : p < nFft) (hq : q < nFft) (hp' : p' < nFft)
    (hq' : q' < nFft) (ha : (p' : ℤ) ≡ p + a [ZMOD nFft]) (hb : (q' : ℤ) ≡ q + b [ZMOD nFft]) :
    spot nFft n (fun j k => e j k * cis (2 * Real.pi * ((a : ℝ) * j + (b : ℝ) * k) / nFft)) tilt p q = spot nFft n e tilt p' q' := by
  have hN : 0 < nFft := by omega
  have hfreq : ∀ (p p' : ℕ) (a : ℤ), p < nFft → p' < nFft → (p' : ℤ) ≡ p + a [ZMOD nFft] →
      ∃ c : ℤ, (ftShiftIdx nFft p : ℝ) - a = ftShiftIdx nFft p' + c * nFft := by
    intro p p' a hp hp' h
    obtain ⟨c, hc⟩ := ftShiftIdx_freq nFft p hp
    obtain ⟨c', hc'⟩ := ftShiftIdx_freq nFft p' hp'
    obtain ⟨t, ht⟩ := h.dvd
    have ht' : (p : ℝ) + a - p' = nFft * t := by exact_mod_cast ht
    refine ⟨c - c' - t, ?_⟩
    rw [hc, hc']; push_cast; linear_combination -ht'
  obtain ⟨c, hc⟩ := hfreq p p' a hp hp' ha
  obtain ⟨d, hd⟩ := hfreq q q' b hq hq' hb
  rw [spot, spot, focal_tilt nFft n hN, hc, hd, focal_period nFft n hN]

/-- A tilt by one element on a field of 2 × 2 in an FFT of 4: pixel 1 afterwards is pixel 2 before. -/
example (e : ℕ → ℕ → ℂ) (tilt : ℕ → ℕ → ℝ) :
    spot 4 2 (fun j k => e j k * cis (2 * Real.pi * (((1 : ℤ) : ℝ) * j + ((0 : ℤ) : ℝ) * k) / (4 : ℕ))) tilt 1 3 = spot 4 2 e tilt 2 3 :=
  C82_tilt 4 2 e tilt 1 0 1 3 2 3 (by norm_num) (by norm_num) (by norm_num) (by norm_num) (by decide) (by decide)

/-- **C82 (detector).** A tilt of `a * b` FFT elements, `b` being the binning, moves the binned image by `a` whole detector pixels. -/
theorem C82_detector (b P n : ℕ) (e : ℕ → ℕ → ℂ) (tilt : ℕ → ℕ → ℝ) (a : ℕ) (i j : ℕ) (hi : i + a < P) (hj : j < P) :
    binned b (spot (P * b) n (fun x y => e x y * cis (2 * Real.pi * (((a * b : ℤ) : ℝ) * x + ((0 : ℤ) : ℝ) * y) / (P * b : ℕ))) tilt) i j =
      binned b (spot (P * b) n e tilt) (i + a) j := by
  unfold binned
  refine sum_congr rfl fun x hx => sum_congr rfl fun y hy => ?_
  have hx' := mem_range.mp hx
  have hy' := mem_range.mp hy
  have hb : ∀ i x, i < P → x < b → x + i * b < P * b := by
    intro i x hi hx
    obtain ⟨d, rfl⟩ : ∃ d, P = i + 1 + d := ⟨P - i - 1, by omega⟩
    have e : (i + 1 + d) * b = i * b + b + d * b := by ring
    rw [e]; omega
  refine C82_tilt (P * b) n e tilt (a * b) 0 _ _ _ _ (hb i x (by omega) hx') (hb j y hj hy') (hb (i + a) x hi hx') (hb j y hj hy') ?_ ?_
  · push_cast; rw [show (x : ℤ) + (i + a) * b = x + i * b + a * b by ring]
  · simp

end Soapy.Props
