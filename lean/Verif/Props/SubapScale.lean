/-
Property theorems C109: where a Shack-Hartmann sensor looks and its plate scale.
-/
import Verif.Model.SubapScale
import Verif.Props.Spot
import Verif.Props.Interp
import Verif.Lemmas.Py
import Verif.Lemmas.Parseval

namespace Soapy.Props

open Finset Soapy.Mirror Soapy.Interp Soapy.Spot Soapy.Tools Soapy.SubapScale

/-- A flat wavefront on `N × N` elements. -/
def flatWaves (N : ℕ) : List (List ℚ) := (List.range N).map fun _ => (List.range N).map fun _ => 0

/-- Distance between neighbouring samples, in pixels of the line of sight. -/
def sampleStep (S N : ℕ) : ℚ := ((S : ℚ) - 1) / (N - 99999999 / 100000000)

private theorem zoomCoord_step (S N k : ℕ) : zoomCoord S N k = k * sampleStep S N := by
  unfold zoomCoord sampleStep; rw [mul_div_assoc]

/-- **C109 (samples).** A tilted wavefront arrives in the sub-apertures as the same tilt, sampled every `(S - 1) / (N - 0.99999999)` pixels. -/
theorem C109_samples (phase : Arr2) (S N : ℕ) (hS : 2 ≤ S) (hr : phase.rows = S) (hc : phase.cols = S) (α β γ : ℚ)
    (hph : ∀ i j : ℕ, i < S → j < S → phase.px i j = α + β * i + γ * j) :
    sampled phase N = .ok ((List.range N).map fun k : ℕ => (List.range N).map fun l : ℕ =>
      α + β * (k * (((S : ℚ) - 1) / (N - 99999999 / 100000000))) + γ * (l * (((S : ℚ) - 1) / (N - 99999999 / 100000000)))) := by
  have h := (C29_zoom phase α β γ 0 N N (by omega) (by omega) (fun i j hi hj => by rw [hph i j (by omega) (by omega)]; ring)).1
  rw [sampled, h, hr, hc]
  congr 1
  refine List.map_congr_left fun k _ => List.map_congr_left fun l _ => ?_
  rw [zoomCoord_step, zoomCoord_step]
  unfold sampleStep
  ring

private theorem waves_get (N : ℕ) (f : ℕ → ℕ → ℚ) (j k : ℕ) (hj : j < N) (hk : k < N) :
    ((((List.range N).map fun a : ℕ => (List.range N).map fun b : ℕ => f a b).getD j []).getD k 0) = f j k := by
  simp [List.getD, hj, hk]

private theorem spot_congr (nFft n : ℕ) (e e' : ℕ → ℕ → ℂ) (tilt : ℕ → ℕ → ℝ) (h : ∀ j < n, ∀ k < n, e j k = e' j k) : spot nFft n e tilt = spot nFft n e' tilt := by
  funext p q
  unfold spot focal
  congr 1
  exact sum_congr rfl fun j hj => sum_congr rfl fun k hk => by rw [h j (mem_range.mp hj) k (mem_range.mp hk)]

/-- **C109 (plate scale).** A wavefront tilted by `w` and `v` waves over the pupil of `P` pixels moves the image of every sub-aperture by `w (S - 1) nFft / (P (N - 0.99999999))` elements, if that is a whole number, whatever the mask, the tilt correction, the piston and the sub-aperture. -/
theorem C109_tilt_partial (phase : Arr2) (S P N m nFft : ℕ) (hS : 2 ≤ S) (hP : 0 < P) (hr : phase.rows = S) (hc : phase.cols = S) (α w v : ℚ)
    (hph : ∀ i j : ℕ, i < S → j < S → phase.px i j = α + w / P * i + v / P * j) (a b : ℤ)
    (ha : w * ((S : ℚ) - 1) * nFft = a * (P * ((N : ℚ) - 99999999 / 100000000))) (hb : v * ((S : ℚ) - 1) * nFft = b * (P * ((N : ℚ) - 99999999 / 100000000)))
    (mask : ℕ → ℕ → ℝ) (tilt : ℕ → ℕ → ℝ) (X Y : ℕ) (hX : X + m ≤ N) (hY : Y + m ≤ N) :
    ∃ waves, sampled phase N = .ok waves ∧ ∀ p q p' q' : ℕ, p < nFft → q < nFft → p' < nFft → q' < nFft →
      (p' : ℤ) ≡ p + a [ZMOD nFft] → (q' : ℤ) ≡ q + b [ZMOD nFft] →
      subImage nFft m tilt mask waves X Y p q = subImage nFft m tilt mask (flatWaves N) X Y p' q' := by
  refine ⟨_, C109_samples phase S N hS hr hc α _ _ hph, fun p q p' q' hp hq hp' hq' h1 h2 => ?_⟩
  rcases Nat.eq_zero_or_pos m with rfl | hm
  · simp [subImage, spot, focal]
  have hN : (1 : ℚ) ≤ N := by exact_mod_cast (show 1 ≤ N by omega)
  have hd : (N : ℚ) - 99999999 / 100000000 ≠ 0 := by intro h; linarith
  have hP' : (P : ℚ) ≠ 0 := by positivity
  have hF : (nFft : ℚ) ≠ 0 := by
    have : 0 < nFft := by omega
    positivity
  have hFr : (nFft : ℝ) ≠ 0 := by exact_mod_cast hF
  set st := ((S : ℚ) - 1) / (N - 99999999 / 100000000) with hst
  have ea : w / P * st = a / nFft := by
    rw [hst, div_mul_div_comm, div_eq_div_iff (mul_ne_zero hP' hd) hF, ha]
  have eb : v / P * st = b / nFft := by
    rw [hst, div_mul_div_comm, div_eq_div_iff (mul_ne_zero hP' hd) hF, hb]
  have ear : ((w / P * st : ℚ) : ℝ) = a / nFft := by rw [ea]; push_cast; rfl
  have ebr : ((v / P * st : ℚ) : ℝ) = b / nFft := by rw [eb]; push_cast; rfl
  set c : ℝ := 2 * Real.pi * ((α : ℝ) + ((a : ℝ) / nFft) * X + ((b : ℝ) / nFft) * Y) with hcdef
  have e1 : ∀ j < m, ∀ k < m, subField mask ((List.range N).map fun k : ℕ => (List.range N).map fun l : ℕ => α + w / P * (k * st) + v / P * (l * st)) X Y j k
      = (subField mask (flatWaves N) X Y j k * cis c) * cis (2 * Real.pi * ((a : ℝ) * j + (b : ℝ) * k) / nFft) := by
    intro j hj k hk
    unfold subField flatWaves
    rw [waves_get N (fun k l => α + w / P * (k * st) + v / P * (l * st)) _ _ (by omega) (by omega), waves_get N (fun _ _ => 0) _ _ (by omega) (by omega)]
    have e : (α + w / P * (((X + j : ℕ) : ℚ) * st) + v / P * (((Y + k : ℕ) : ℚ) * st)) = α + (w / P * st) * (X + j : ℕ) + (v / P * st) * (Y + k : ℕ) := by ring
    rw [e]
    have e' : 2 * Real.pi * ((α + (w / P * st) * (X + j : ℕ) + (v / P * st) * (Y + k : ℕ) : ℚ) : ℝ) = c + 2 * Real.pi * ((a : ℝ) * j + (b : ℝ) * k) / nFft := by
      have : ((α + (w / P * st) * (X + j : ℕ) + (v / P * st) * (Y + k : ℕ) : ℚ) : ℝ) = (α : ℝ) + ((w / P * st : ℚ) : ℝ) * ((X : ℝ) + j) + ((v / P * st : ℚ) : ℝ) * ((Y : ℝ) + k) := by
        push_cast; ring
      rw [this, ear, ebr, hcdef]
      field_simp
      ring
    rw [e', cis_add]
    have e0 : cis (2 * Real.pi * ((0 : ℚ) : ℝ)) = 1 := by simp [cis]
    rw [e0]; ring
  unfold subImage
  rw [spot_congr nFft m _ _ tilt e1, C82_tilt nFft m (fun j k => subField mask (flatWaves N) X Y j k * cis c) tilt a b p q p' q' hp hq hp' hq' h1 h2]
  exact C82_piston nFft m (subField mask (flatWaves N) X Y) tilt c p' q'

/-- A pupil of 2 pixels in a line of sight of 4 pixels, a tilt of a little more than one wave: one element of two. -/
example (mask tilt : ℕ → ℕ → ℝ) : ∃ waves, sampled ⟨4, 4, fun i _ => 7 + 300000001 / 300000000 / (2 : ℕ) * i + 0 / (2 : ℕ) * i⟩ 4 = .ok waves ∧
    subImage 2 2 tilt mask waves 1 1 0 0 = subImage 2 2 tilt mask (flatWaves 4) 1 1 1 0 := by
  obtain ⟨waves, hw, h⟩ := C109_tilt_partial ⟨4, 4, fun i _ => 7 + 300000001 / 300000000 / (2 : ℕ) * i + 0 / (2 : ℕ) * i⟩ 4 2 4 2 2 (by norm_num) (by norm_num) rfl rfl 7 (300000001 / 300000000) 0
    (fun i j _ _ => by simp) 1 0 (by norm_num) (by norm_num) mask tilt 1 1 (by norm_num) (by norm_num)
  exact ⟨waves, hw, h 0 0 1 0 (by norm_num) (by norm_num) (by norm_num) (by norm_num) (by decide) (by decide)⟩

/-- **C109 (detector).** On the detector: with binning `b` and `P₁` pixels (before cropping) a tilt of `w` waves with `w (S - 1) P₁ = a P (N - 0.99999999)` moves the image by `a` pixels. -/
theorem C109_detector_partial (phase : Arr2) (S P N m b P₁ : ℕ) (hS : 2 ≤ S) (hP : 0 < P) (hr : phase.rows = S) (hc : phase.cols = S) (α w : ℚ)
    (hph : ∀ i j : ℕ, i < S → j < S → phase.px i j = α + w / P * i) (a : ℕ)
    (ha : w * ((S : ℚ) - 1) * P₁ = a * (P * ((N : ℚ) - 99999999 / 100000000)))
    (mask : ℕ → ℕ → ℝ) (tilt : ℕ → ℕ → ℝ) (X Y : ℕ) (hX : X + m ≤ N) (hY : Y + m ≤ N) :
    ∃ waves, sampled phase N = .ok waves ∧ ∀ i j : ℕ, i + a < P₁ → j < P₁ →
      binned b (subImage (P₁ * b) m tilt mask waves X Y) i j = binned b (subImage (P₁ * b) m tilt mask (flatWaves N) X Y) (i + a) j := by
  obtain ⟨waves, hw, key⟩ := C109_tilt_partial phase S P N m (P₁ * b) hS hP hr hc α w 0 (fun i j hi hj => by rw [hph i j hi hj]; ring) (a * b : ℕ) 0
    (by push_cast; rw [← mul_assoc, ha]; ring) (by simp) mask tilt X Y hX hY
  refine ⟨waves, hw, fun i j hi hj => ?_⟩
  unfold binned
  refine sum_congr rfl fun x hx => sum_congr rfl fun y hy => ?_
  have hx' := mem_range.mp hx
  have hy' := mem_range.mp hy
  have hb : ∀ i x, i < P₁ → x < b → x + i * b < P₁ * b := by
    intro i x hi hx
    obtain ⟨d, rfl⟩ : ∃ d, P₁ = i + 1 + d := ⟨P₁ - i - 1, by omega⟩
    have e : (i + 1 + d) * b = i * b + b + d * b := by ring
    rw [e]; omega
  refine key _ _ _ _ (hb i x (by omega) hx') (hb j y hj hy') (hb (i + a) x hi hx') (hb j y hj hy') ?_ (by simp)
  push_cast
  exact congrArg (fun z : ℤ => z % _) (by ring)

/-! ### Against the configured field of view

`x` is `subap_diam * subap_fov_rad / wavelength`, so that `w` waves over the telescope are an angle of `w / (nx x)` fields of view, which is `w nFft / (nx x over)` elements of the FFT. -/

/-- Displacement of the image over the displacement that `subapFOV` says. -/
def scaleRatio (S P N nx over : ℕ) (x : ℚ) : ℚ := ((S : ℚ) - 1) * (nx * over * x) / (P * ((N : ℚ) - 99999999 / 100000000))

/-- **C109 (ratio).** The displacement is the configured one times `scaleRatio`. -/
theorem C109_ratio (S P N nx over nFft : ℕ) (x w : ℚ) (a : ℚ) (hx : 0 < x) (hnx : 0 < nx) (hov : 0 < over) (hP : 0 < P) (hN : 1 ≤ N)
    (ha : w * ((S : ℚ) - 1) * nFft = a * (P * ((N : ℚ) - 99999999 / 100000000))) : a = scaleRatio S P N nx over x * (w * nFft / (nx * x * over)) := by
  have hN' : (1 : ℚ) ≤ N := by exact_mod_cast hN
  have hd : (N : ℚ) - 99999999 / 100000000 ≠ 0 := by intro h; linarith
  have hP' : (P : ℚ) ≠ 0 := by positivity
  have h1 : (nx : ℚ) ≠ 0 := by positivity
  have h2 : (over : ℚ) ≠ 0 := by positivity
  unfold scaleRatio
  rw [div_mul_div_comm, eq_div_iff (by positivity)]
  linear_combination (-(nx * x * over : ℚ)) * ha

/-- **C109 (how far off).** The ratio is `(1 - 1/S) N / (N - 0.99999999)` but for the two roundings: one of at most `over / (2 m)` for the size of a sub-aperture, one of at most `1 / (2 N)` for the size of the field. -/
theorem C109_roundings (S P nx over : ℕ) (x : ℚ) (m N : ℕ) (hnx : 0 < nx) (hov : 0 < over) (hP : 0 < P) (hS : 2 ≤ S) (hm : (m : ℤ) = nxInterp over x) (hm0 : 0 < m)
    (hN : N = efieldSize nx m P S) (hN1 : 1 ≤ N) :
    ∃ e₁ e₂ : ℚ, |e₁| ≤ over / (2 * m) ∧ |e₂| ≤ 1 / (2 * N) ∧
      scaleRatio S P N nx over x = (1 - 1 / S) * (1 + e₁) * (1 + e₂) * (N / (N - 99999999 / 100000000)) := by
  have hN' : (1 : ℚ) ≤ N := by exact_mod_cast hN1
  have hd : (N : ℚ) - 99999999 / 100000000 ≠ 0 := by intro h; linarith
  have hP' : (P : ℚ) ≠ 0 := by positivity
  have hm' : (0 : ℚ) < m := by positivity
  have hN0 : (0 : ℚ) < N := by linarith
  have hS' : (0 : ℚ) < S := by
    have : (2 : ℚ) ≤ S := by exact_mod_cast hS
    linarith
  refine ⟨over * x / m - 1, nx * m * (S / P) / N - 1, ?_, ?_, ?_⟩
  · have h := pyRound_close x
    have hmq : (m : ℚ) = pyRound x * over := by
      have : ((m : ℤ) : ℚ) = ((pyRound x * over : ℤ) : ℚ) := by rw [hm]; rfl
      push_cast at this; exact this
    have e : over * x / m - 1 = over * (x - pyRound x) / m := by
      rw [div_sub_one hm'.ne', hmq]; congr 1; ring
    have ho : (0 : ℚ) < over := by positivity
    rw [e, abs_div, abs_mul, abs_of_pos ho, abs_of_pos hm', div_le_div_iff₀ hm' (by positivity)]
    nlinarith [mul_le_mul_of_nonneg_left h ho.le, mul_pos ho hm']
  · set y := (nx : ℚ) * m * (S / P) with hy
    have h := pyRound_close y
    have hNq : (N : ℚ) = pyRound y := by
      have h0 : 0 ≤ pyRound y := by
        by_contra hc
        rw [hN, efieldSize, ← hy, Int.toNat_of_nonpos (by omega)] at hN1
        omega
      have : ((N : ℤ) : ℚ) = ((pyRound y : ℤ) : ℚ) := by rw [hN, efieldSize, ← hy, Int.toNat_of_nonneg h0]
      simpa using this
    rw [div_sub_one hN0.ne', abs_div, abs_of_pos hN0, div_le_div_iff₀ hN0 (by positivity), hNq] 
    rw [hNq] at hN0
    nlinarith
  · have hnx' : (nx : ℚ) ≠ 0 := by positivity
    unfold scaleRatio
    field_simp
    ring

/-- **C109 (never exact).** Where nothing has to be rounded the displacement is too small, by less than one part in `S`: it never is the configured one. -/
theorem C109_never (S P nx over : ℕ) (x : ℚ) (m N : ℕ) (hP : 0 < P) (hS : 2 ≤ S) (hm : (m : ℚ) = over * x) (hN : (N : ℚ) = nx * m * (S / P)) (hSN : S ≤ N) :
    1 - 1 / (S : ℚ) < scaleRatio S P N nx over x ∧ scaleRatio S P N nx over x < 1 := by
  have hS' : (2 : ℚ) ≤ S := by exact_mod_cast hS
  have hS0 : (0 : ℚ) < S := by linarith
  have hSN' : (S : ℚ) ≤ N := by exact_mod_cast hSN
  have hd : (0 : ℚ) < (N : ℚ) - 99999999 / 100000000 := by linarith
  have hP' : (P : ℚ) ≠ 0 := by positivity
  have e : scaleRatio S P N nx over x = (1 - 1 / S) * (N / (N - 99999999 / 100000000)) := by
    unfold scaleRatio
    rw [mul_assoc, ← hm]
    have e2 : (nx : ℚ) * m = N * P / S := by rw [hN]; field_simp
    rw [e2]; field_simp
  have hq : (1 : ℚ) < N / (N - 99999999 / 100000000) := by rw [lt_div_iff₀ hd]; linarith
  have h1 : (0 : ℚ) < 1 - 1 / S := by
    rw [sub_pos, div_lt_one hS0]; linarith
  rw [e]
  constructor
  · nlinarith
  · rw [show (1 : ℚ) - 1 / S = (S - 1) / S by field_simp, div_mul_div_comm, div_lt_one (mul_pos hS0 hd)]
    nlinarith

example : 1 - 1 / (105 : ℕ) < scaleRatio 105 100 336 8 2 20 ∧ scaleRatio 105 100 336 8 2 20 < 1 :=
  C109_never 105 100 8 2 20 40 336 (by norm_num) (by norm_num) (by norm_num) (by norm_num) (by norm_num)

/-- The first sensor of `conf/sh_8x8.yaml` (100 pixels of pupil, 102 with padding, 8 sub-apertures, `x = 20.2`): 40 elements for a sub-aperture, 326 for the field, displacements 0.4 % too large. -/
example : nxInterp 2 (202 / 10) = 40 ∧ efieldSize 8 40 100 102 = 326 ∧ |scaleRatio 102 100 326 8 2 (202 / 10) - 10044 / 10000| < 1 / 10000 := by
  decide +kernel

/-! ### Where the sub-apertures are -/

private theorem round_gap (y y' : ℚ) (m : ℕ) (h : y + m < y') : pyRound y + m ≤ pyRound y' := by
  have h1 := abs_le.mp (pyRound_close y)
  have h2 := abs_le.mp (pyRound_close y')
  have : ((pyRound y + m : ℤ) : ℚ) < ((pyRound y' + 1 : ℤ) : ℚ) := by push_cast; linarith
  have := Int.cast_lt.mp this
  omega

/-- **C109 (inside).** With at least one pixel of padding the slices of all sub-apertures lie in the field: none is cut short. -/
theorem C109_inside (P nx pad m x : ℕ) (hP : 0 < P) (hpad : 0 < pad) (hm : 0 < m) (hx : x < nx) :
    0 ≤ Subaps.interpCoord P nx pad m x ∧ Subaps.interpCoord P nx pad m x + m ≤ efieldSize nx m P (P + 2 * pad) := by
  have hnx : 0 < nx := by omega
  have hP' : (0 : ℚ) < P := by positivity
  have hnx' : (0 : ℚ) < nx := by positivity
  have hm' : (0 : ℚ) < m := by positivity
  have hpad' : (0 : ℚ) < pad := by positivity
  have hz : (0 : ℚ) ≤ (x : ℚ) * (P / nx) := by positivity
  have hc : 0 ≤ Subaps.pupilCoord P nx x ∧ (Subaps.pupilCoord P nx x : ℚ) ≤ (x : ℚ) * (P / nx) := by
    unfold Subaps.pupilCoord pyInt
    rw [if_pos hz]
    exact ⟨Int.floor_nonneg.mpr hz, Int.floor_le _⟩
  have hx' : (x : ℚ) + 1 ≤ nx := by exact_mod_cast hx
  unfold Subaps.interpCoord efieldSize
  set c := Subaps.pupilCoord P nx x
  have hcq : (0 : ℚ) ≤ c := by exact_mod_cast hc.1
  constructor
  · rw [show (0 : ℤ) = pyRound ((0 : ℤ) : ℚ) from (pyRound_int 0).symm]
    apply pyRound_mono
    push_cast
    positivity
  · have hgap : ((c + pad : ℤ) : ℚ) * m / ((P : ℚ) / nx) + m < (nx : ℚ) * m * (((P + 2 * pad : ℕ) : ℚ) / P) := by
      push_cast
      have e1 : ((c : ℚ) + pad) * m / ((P : ℚ) / nx) + m = m * nx / P * (c + pad + P / nx) := by field_simp
      have e2 : (nx : ℚ) * m * (((P : ℚ) + 2 * pad) / P) = m * nx / P * (P + 2 * pad) := by field_simp
      rw [e1, e2]
      apply mul_lt_mul_of_pos_left _ (by positivity)
      have h3 : ((x : ℚ) + 1) * (P / nx) ≤ P := by
        calc ((x : ℚ) + 1) * (P / nx) ≤ nx * (P / nx) := mul_le_mul_of_nonneg_right hx' (by positivity)
          _ = P := by field_simp
      linarith [hc.2]
    have h := round_gap _ _ m hgap
    have h0 : (0 : ℤ) ≤ pyRound ((nx : ℚ) * m * (((P + 2 * pad : ℕ) : ℚ) / P)) := by
      rw [show (0 : ℤ) = pyRound ((0 : ℤ) : ℚ) from (pyRound_int 0).symm]
      apply pyRound_mono
      push_cast
      positivity
    rw [Int.toNat_of_nonneg h0]
    exact h

example : (List.range 8).map (fun x => Subaps.interpCoord 100 8 1 40 x) = [3, 42, 83, 122, 163, 202, 243, 282] ∧ 282 + 40 ≤ efieldSize 8 40 100 102 := by decide +kernel

/-- **C109 (registration).** The first element of a sub-aperture that begins at pixel `u` of the line of sight shows a point less than one pixel away from it (if the field has at least as many elements as the line of sight pixels). -/
theorem C109_registration (S P nx m N X : ℕ) (u : ℕ) (hP : 0 < P) (hS : 2 ≤ S) (hu : u ≤ S) (hN : N = efieldSize nx m P S) (hSN : S ≤ N)
    (hX : (X : ℤ) = pyRound ((u : ℚ) * m / ((P : ℚ) / nx))) (hnx : 0 < nx) :
    |zoomCoord S N X - u| ≤ 1 + 1 / 100000000 := by
  have hS' : (2 : ℚ) ≤ S := by exact_mod_cast hS
  have hSN' : (S : ℚ) ≤ N := by exact_mod_cast hSN
  have hu' : (u : ℚ) ≤ S := by exact_mod_cast hu
  have hu0 : (0 : ℚ) ≤ u := by positivity
  have hP' : (0 : ℚ) < P := by positivity
  have hnx' : (0 : ℚ) < nx := by positivity
  have hd : (0 : ℚ) < (N : ℚ) - 99999999 / 100000000 := by linarith
  set y := (nx : ℚ) * m * (S / P) with hy
  have hyS : (u : ℚ) * m / ((P : ℚ) / nx) = u * (y / S) := by rw [hy]; field_simp
  have h0 : 0 ≤ pyRound y := by
    rw [show (0 : ℤ) = pyRound ((0 : ℤ) : ℚ) from (pyRound_int 0).symm]
    apply pyRound_mono
    rw [hy]; push_cast; positivity
  have hNq : (N : ℚ) = pyRound y := by
    have : ((N : ℤ) : ℚ) = ((pyRound y : ℤ) : ℚ) := by rw [hN, efieldSize, ← hy, Int.toNat_of_nonneg h0]
    simpa using this
  have hXq : (X : ℚ) = pyRound (u * (y / S)) := by
    have : ((X : ℤ) : ℚ) = ((pyRound (u * (y / S)) : ℤ) : ℚ) := by rw [hX, hyS]
    simpa using this
  have h1 := abs_le.mp (pyRound_close (u * (y / S)))
  have h2 := abs_le.mp (pyRound_close y)
  rw [← hXq] at h1
  rw [← hNq] at h2
  set e1 := (u : ℚ) * (y / S) - X with he1
  set e2 := y - N with he2
  have hX2 : (X : ℚ) = u * ((N + e2) / S) - e1 := by rw [he1, he2]; ring
  set t := (u : ℚ) / S with ht
  have ht0 : 0 ≤ t := by positivity
  have ht1 : t ≤ 1 := by rw [ht, div_le_one (by linarith)]; exact hu'
  have hut : (u : ℚ) = t * S := by rw [ht]; field_simp
  have hX3 : (X : ℚ) = t * (N + e2) - e1 := by rw [hX2, hut]; field_simp
  have hT : (X : ℚ) * (S - 1) - u * (N - 99999999 / 100000000) = -(t * N) + t * S * (99999999 / 100000000) + t * e2 * (S - 1) - e1 * (S - 1) := by
    rw [hX3, hut]; ring
  have hte : |t * e2 * (S - 1)| ≤ (S - 1) / 2 := by
    rw [abs_mul, abs_mul, abs_of_nonneg ht0, abs_of_pos (show (0 : ℚ) < (S : ℚ) - 1 by linarith)]
    have : |e2| ≤ 1 / 2 := abs_le.mpr h2
    have h3 : t * |e2| ≤ 1 / 2 := by nlinarith [abs_nonneg e2]
    nlinarith
  have hee : |e1 * (S - 1)| ≤ (S - 1) / 2 := by
    rw [abs_mul, abs_of_pos (show (0 : ℚ) < (S : ℚ) - 1 by linarith)]
    have : |e1| ≤ 1 / 2 := abs_le.mpr h1
    nlinarith
  have hte' := abs_le.mp hte
  have hee' := abs_le.mp hee
  have e : zoomCoord S N X - u = ((X : ℚ) * (S - 1) - u * (N - 99999999 / 100000000)) / (N - 99999999 / 100000000) := by
    unfold zoomCoord; rw [div_sub' hd.ne', mul_comm (u : ℚ)]
  rw [e, hT, abs_le]
  have hg : (0 : ℚ) ≤ N - S * (99999999 / 100000000) := by linarith
  have hA := mul_nonneg ht0 hg
  have hB := mul_le_mul_of_nonneg_right ht1 hg
  have hr : t * (N - S * (99999999 / 100000000)) = t * N - t * S * (99999999 / 100000000) := by ring
  rw [hr] at hA hB
  constructor
  · rw [le_div_iff₀ hd]; linarith
  · rw [div_le_iff₀ hd]; linarith

example : |zoomCoord 102 326 42 - 13| ≤ 1 + 1 / 100000000 :=
  C109_registration 102 100 8 40 326 42 13 (by norm_num) (by norm_num) (by norm_num) (by decide +kernel) (by norm_num) (by decide +kernel) (by norm_num)

/-- **C109 (mask).** Phase and mask are sampled at the same places, but for a hundred-millionth of the size. -/
theorem C109_mask (S N k : ℕ) (hS : 1 ≤ S) (hk : k < N) : zoomCoord S N k ≤ maskRow S N k ∧ maskRow S N k - zoomCoord S N k ≤ ((S : ℚ) - 1) / 100000000 := by
  have hS' : (1 : ℚ) ≤ S := by exact_mod_cast hS
  have hk' : (k : ℚ) + 1 ≤ N := by exact_mod_cast hk
  have hk0 : (0 : ℚ) ≤ k := by positivity
  unfold zoomCoord maskRow Tools.linspace0
  split
  · rename_i h
    have : k = 0 := by omega
    subst this
    simp; linarith
  · rename_i h
    have hN2 : (2 : ℚ) ≤ N := by exact_mod_cast (show 2 ≤ N by omega)
    have h1 : (0 : ℚ) < (N : ℚ) - 1 := by linarith
    have hd : (0 : ℚ) < (N : ℚ) - 99999999 / 100000000 := by linarith
    have hnum : 0 ≤ (k : ℚ) * (S - 1) := mul_nonneg hk0 (by linarith)
    constructor
    · exact div_le_div_of_nonneg_left hnum h1 (by linarith)
    · have e : (k : ℚ) * (S - 1) / (N - 1) - k * (S - 1) / (N - 99999999 / 100000000) = (k / (N - 1)) * ((S - 1) / 100000000) / (N - 99999999 / 100000000) := by
        rw [div_sub_div _ _ h1.ne' hd.ne', div_mul_eq_mul_div, div_div]
        congr 1
        ring
      rw [e, div_le_iff₀ hd]
      have hq : (k : ℚ) / (N - 1) ≤ 1 := by rw [div_le_one h1]; linarith
      have hs : (0 : ℚ) ≤ (S - 1) / 100000000 := by apply div_nonneg <;> linarith
      nlinarith

/-! ### What the property asks -/

/-- A tilt of `w` waves over the telescope that is `a` elements of the configured field of view moves all images by `a` elements. -/
def C109_Plate : Prop := ∀ (phase : Arr2) (S P pad nx over m N nFft : ℕ) (x α w : ℚ) (a : ℤ) (mask tilt : ℕ → ℕ → ℝ) (X Y : ℕ) (waves : List (List ℚ)),
  0 < P → 0 < pad → S = P + 2 * pad → 0 < x → (m : ℤ) = nxInterp over x → N = efieldSize nx m P S → m ≤ nFft → X + m ≤ N → Y + m ≤ N → phase.rows = S → phase.cols = S →
  (∀ i j : ℕ, i < S → j < S → phase.px i j = α + w / P * i) → w * nFft = a * (nx * x * over) → sampled phase N = .ok waves →
  ∀ p q p' : ℕ, p < nFft → q < nFft → p' < nFft → (p' : ℤ) ≡ p + a [ZMOD nFft] → subImage nFft m tilt mask waves X Y p q = subImage nFft m tilt mask (flatWaves N) X Y p' q

/-- The witness: a pupil of 2 pixels in a line of sight of 4, one sub-aperture with `x = 2.4`, a tilt of 1.2 waves, which is one element of the configured field of view. -/
def toyTilt : Arr2 := ⟨4, 4, fun i _ => 3 / 5 * i⟩

/-- **C109 is violated.** For `x = 2.4` the sub-aperture gets 2 elements, and a tilt of one element moves the image by almost 1.2 elements. -/
theorem C109_violated : ¬ C109_Plate := by
  intro H
  have hw := C109_samples toyTilt 4 4 (by norm_num) rfl rfl 0 (3 / 5) 0 (fun i j _ _ => by simp [toyTilt])
  have h := H toyTilt 4 2 1 1 1 2 4 2 (12 / 5) 0 (6 / 5) 1 (fun _ _ => 1) (fun _ _ => 0) 1 1 _ (by norm_num) (by norm_num) (by norm_num) (by norm_num) (by decide +kernel) (by decide +kernel)
    (by norm_num) (by norm_num) (by norm_num) rfl rfl (fun i j _ _ => by simp only [toyTilt]; push_cast; ring) (by norm_num) hw 0 0 1 (by norm_num) (by norm_num) (by norm_num) (by decide)
  have i0 : ftShiftIdx 2 0 = 0 := by decide +kernel
  have i1 : ftShiftIdx 2 1 = 1 := by decide +kernel
  set r : ℝ := 2 * Real.pi * (180000000 / 300000001) with hr
  have hflat : subImage 2 2 (fun _ _ => 0) (fun _ _ => 1) (flatWaves 4) 1 1 1 0 = 0 := by
    unfold subImage spot focal
    rw [i0, i1]
    have hf : ∀ j < 2, ∀ k < 2, subField (fun _ _ => 1) (flatWaves 4) 1 1 j k = 1 := by
      intro j hj k hk
      unfold subField flatWaves
      rw [waves_get 4 (fun _ _ => 0) _ _ (by omega) (by omega)]
      simp [cis]
    simp only [sum_range_succ, sum_range_zero, zero_add]
    rw [hf 0 (by norm_num) 0 (by norm_num), hf 0 (by norm_num) 1 (by norm_num), hf 1 (by norm_num) 0 (by norm_num), hf 1 (by norm_num) 1 (by norm_num)]
    have z : cis 0 = 1 := Lemmas.cis_zero'
    have e : cis (-Real.pi) = -1 := by
      rw [← cis_conj, cis, Complex.exp_pi_mul_I]; simp
    norm_num [z, e]
  have htilt : subImage 2 2 (fun _ _ => 0) (fun _ _ => 1) ((List.range 4).map fun k : ℕ => (List.range 4).map fun l : ℕ =>
      (0 : ℚ) + 3 / 5 * (k * ((((4 : ℕ) : ℚ) - 1) / (((4 : ℕ) : ℚ) - 99999999 / 100000000))) + 0 * (l * ((((4 : ℕ) : ℚ) - 1) / (((4 : ℕ) : ℚ) - 99999999 / 100000000)))) 1 1 0 0
      = Complex.normSq (2 * cis r * (1 + cis r)) := by
    unfold subImage spot focal
    rw [i0]
    have hf : ∀ j < 2, ∀ k < 2, subField (fun _ _ => 1) ((List.range 4).map fun k : ℕ => (List.range 4).map fun l : ℕ =>
        (0 : ℚ) + 3 / 5 * (k * ((((4 : ℕ) : ℚ) - 1) / (((4 : ℕ) : ℚ) - 99999999 / 100000000))) + 0 * (l * ((((4 : ℕ) : ℚ) - 1) / (((4 : ℕ) : ℚ) - 99999999 / 100000000)))) 1 1 j k
        = cis r * cis (j * r) := by
      intro j hj k hk
      unfold subField
      rw [waves_get 4 (fun k l => (0 : ℚ) + 3 / 5 * (k * ((((4 : ℕ) : ℚ) - 1) / (((4 : ℕ) : ℚ) - 99999999 / 100000000))) + 0 * (l * ((((4 : ℕ) : ℚ) - 1) / (((4 : ℕ) : ℚ) - 99999999 / 100000000)))) _ _ (by omega) (by omega), ← cis_add]
      rw [Complex.ofReal_one, one_mul]
      congr 1
      rw [hr]; push_cast; norm_num; ring
    generalize subField _ _ 1 1 = e at hf ⊢
    simp only [sum_range_succ, sum_range_zero, zero_add]
    rw [hf 0 (by norm_num) 0 (by norm_num), hf 0 (by norm_num) 1 (by norm_num), hf 1 (by norm_num) 0 (by norm_num), hf 1 (by norm_num) 1 (by norm_num)]
    have z : cis 0 = 1 := Lemmas.cis_zero'
    congr 1
    norm_num [z]
    ring
  rw [htilt, hflat, Complex.normSq_eq_zero] at h
  have hn : cis r ≠ 0 := by unfold cis; exact Complex.exp_ne_zero _
  have h2 : 1 + cis r = 0 := by
    rcases mul_eq_zero.mp h with h | h
    · rcases mul_eq_zero.mp h with h | h
      · norm_num at h
      · exact absurd h hn
    · exact h
  have h3 : cis (2 * Real.pi * ((360000000 : ℤ) : ℝ) / ((300000001 : ℕ) : ℝ)) = 1 := by
    have e : 2 * Real.pi * ((360000000 : ℤ) : ℝ) / ((300000001 : ℕ) : ℝ) = r + r := by rw [hr]; push_cast; ring
    rw [e, cis_add, show cis r = -1 by linear_combination h2]; norm_num
  exact Lemmas.cis_ne_one 300000001 (by norm_num) 360000000 (by norm_num) h3

end Soapy.Props
