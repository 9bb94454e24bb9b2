/-
C83: launch optics of the laser.  C84: scale of the laser spot.  C85: layers of an elongated beacon.  C64: what the missing complex zoom does to sensors and lasers.
-/
import Verif.Model.Laser
import Verif.Lemmas.Py
import Mathlib.Analysis.SpecialFunctions.Integrals.Basic

namespace Soapy.Props

open Soapy.Laser Soapy.Tools Soapy.Mirror Soapy.Nan Soapy.Influence

/-! ### C83 -/

/-- **C83 (focus).** Up to a constant, the phase on the beam at distance `rho * D / 2` from the axis is that of the parabola which focuses at height `h`. -/
theorem C83_focus (h D lam rho : ℝ) (hh : h ≠ 0) (hD : D ≠ 0) (hl : lam ≠ 0) :
    launchPhase h D lam rho - launchPhase h D lam 0 = -(2 * Real.pi / lam) * ((rho * D / 2) ^ 2 / (2 * h)) := by
  have h3 : Real.sqrt 3 ≠ 0 := by positivity
  unfold launchPhase focusRms zernike4
  field_simp
  ring

/-- **C83 (focus, mean).** Over the pupil the phase on the beam has mean zero and mean square `focusRms ^ 2`, as the name of the coefficient says. -/
theorem C83_rms (h D lam : ℝ) :
    (∫ rho in (0 : ℝ)..1, launchPhase h D lam rho * (2 * rho)) = 0 ∧ (∫ rho in (0 : ℝ)..1, launchPhase h D lam rho ^ 2 * (2 * rho)) = focusRms h D lam ^ 2 := by
  have h3 : Real.sqrt 3 ^ 2 = 3 := Real.sq_sqrt (by norm_num)
  constructor
  · have : ∀ rho : ℝ, launchPhase h D lam rho * (2 * rho) = (-focusRms h D lam * Real.sqrt 3) * (4 * rho ^ 3 - 2 * rho) := by
      intro rho; unfold launchPhase zernike4; ring
    simp only [this]
    rw [intervalIntegral.integral_const_mul, intervalIntegral.integral_sub (Continuous.intervalIntegrable (by fun_prop) _ _) (Continuous.intervalIntegrable (by fun_prop) _ _), intervalIntegral.integral_const_mul, intervalIntegral.integral_const_mul]
    simp only [integral_pow, integral_id]
    norm_num
  · have : ∀ rho : ℝ, launchPhase h D lam rho ^ 2 * (2 * rho) = focusRms h D lam ^ 2 * (24 * rho ^ 5 - 24 * rho ^ 3 + 6 * rho) := by
      intro rho
      unfold launchPhase zernike4
      linear_combination (focusRms h D lam ^ 2 * (2 * rho ^ 2 - 1) ^ 2 * (2 * rho)) * h3
    simp only [this]
    rw [intervalIntegral.integral_const_mul, intervalIntegral.integral_add (Continuous.intervalIntegrable (by fun_prop) _ _) (Continuous.intervalIntegrable (by fun_prop) _ _), intervalIntegral.integral_sub (Continuous.intervalIntegrable (by fun_prop) _ _) (Continuous.intervalIntegrable (by fun_prop) _ _),
      intervalIntegral.integral_const_mul, intervalIntegral.integral_const_mul, intervalIntegral.integral_const_mul]
    simp only [integral_pow, integral_id]
    norm_num

/-- **C83 (focus, exact wave).** The parabola differs from the spherical wave converging at height `h` by less than `r⁴ / (8 h³)` of path. -/
theorem C83_focus_error (h r : ℝ) (hh : 0 < h) :
    0 ≤ r ^ 2 / (2 * h) - (Real.sqrt (h ^ 2 + r ^ 2) - h) ∧ r ^ 2 / (2 * h) - (Real.sqrt (h ^ 2 + r ^ 2) - h) ≤ r ^ 4 / (8 * h ^ 3) := by
  have hpos : 0 ≤ r ^ 2 := sq_nonneg r
  have hs : 0 ≤ Real.sqrt (h ^ 2 + r ^ 2) := Real.sqrt_nonneg _
  have hs2 : Real.sqrt (h ^ 2 + r ^ 2) ^ 2 = h ^ 2 + r ^ 2 := Real.sq_sqrt (by positivity)
  constructor
  · have : Real.sqrt (h ^ 2 + r ^ 2) ≤ h + r ^ 2 / (2 * h) := by
      apply Real.sqrt_le_iff.mpr
      refine ⟨by positivity, ?_⟩
      have : (h + r ^ 2 / (2 * h)) ^ 2 = h ^ 2 + r ^ 2 + (r ^ 2 / (2 * h)) ^ 2 := by field_simp; ring
      rw [this]
      have := sq_nonneg (r ^ 2 / (2 * h))
      linarith
    linarith
  · have key : h + r ^ 2 / (2 * h) - r ^ 4 / (8 * h ^ 3) ≤ Real.sqrt (h ^ 2 + r ^ 2) := by
      set t := r ^ 2 / (2 * h) with ht
      have ht0 : 0 ≤ t := by positivity
      have h4 : r ^ 4 / (8 * h ^ 3) = t ^ 2 / (2 * h) := by rw [ht]; field_simp; ring
      have hr : r ^ 2 = 2 * h * t := by rw [ht]; field_simp
      rw [h4, hr]
      rcases le_or_gt (h + t - t ^ 2 / (2 * h)) 0 with hneg | hp
      · exact hneg.trans (Real.sqrt_nonneg _)
      · apply Real.le_sqrt_of_sq_le
        set s := t ^ 2 / (2 * h) with hsdef
        have hs0 : 0 ≤ s := by positivity
        have hst : 2 * h * s = t ^ 2 := by rw [hsdef]; field_simp
        -- `(h + t - s)² = h² + 2 h t + t² - 2 s h - s (2 t - s)` and `2 s h = t²`
        have hle : s ≤ h + t := by linarith
        have h2t : s ≤ 2 * t := by
          by_contra hcon
          push Not at hcon
          -- then `t² = 2 h s > 4 h t`, so `t > 4 h`, and `s = t² / (2 h) > 2 t ≥ h + t`
          have : t ^ 2 > 2 * h * (2 * t) := by rw [← hst]; exact mul_lt_mul_of_pos_left hcon (by positivity)
          rcases ht0.eq_or_lt with h0 | h0
          · rw [← h0] at this; nlinarith
          · have h4h : 4 * h < t := by nlinarith
            linarith
        nlinarith [mul_nonneg hs0 (sub_nonneg.mpr h2t)]
    linarith

/-- A beacon at 90 km and a launch telescope of 1 m, at the edge: path `1 / 8 / 90000`. -/
example : launchPhase 90000 1 1 1 - launchPhase 90000 1 1 0 = -(2 * Real.pi) * (1 / 4 / 180000) := by
  rw [C83_focus _ _ _ _ (by norm_num) (by norm_num) (by norm_num)]; norm_num

/-- **C83 (lens in the beam).** The focus array fits exactly if the launch telescope is not larger than the array; it then covers `p` elements from position `m / 2 - p / 2` on. -/
theorem C83_lens (m p : ℕ) (hp : 2 ≤ p) :
    (p ≤ m → placeFocus m p = .ok (m / 2 - p / 2) ∧ m / 2 - p / 2 + p ≤ m) ∧ (m < p → placeFocus m p = .error .valueError) := by
  unfold placeFocus focusRange sliceLen sliceBound
  simp only
  constructor
  · intro h
    rw [if_pos (Or.inl (by split_ifs <;> omega))]
    refine ⟨?_, by omega⟩
    split_ifs <;> (congr 1; omega)
  · intro h
    rw [if_neg]
    rintro (h1 | h1)
    · revert h1; split_ifs <;> omega
    · omega

/-- **C83 (centring).** The lens is in the middle of the (centred) round beam exactly if the two sizes are both even or both odd; otherwise it is one element nearer to one side. -/
theorem C83_centred_partial (m p s : ℕ) (hp : 2 ≤ p) (h : placeFocus m p = .ok s) :
    (s = m - (s + p) ↔ m % 2 = p % 2) ∧ (m % 2 ≠ p % 2 → s + 1 = m - (s + p) ∨ s = m - (s + p) + 1) := by
  have hm : p ≤ m := by
    by_contra hc
    rw [(C83_lens m p hp).2 (by omega)] at h; cases h
  obtain ⟨h1, h2⟩ := (C83_lens m p hp).1 hm
  rw [h1, Except.ok.injEq] at h
  subst h
  constructor
  · constructor <;> intro <;> omega
  · intro; omega

/-- **C83 is violated**: 4 elements of beam in an array of 9 (3 × 3): the lens has two elements on one side and three on the other. -/
theorem C83_violated : placeFocus 9 4 = .ok 2 ∧ 9 - (2 + 4) = 3 := by decide +kernel

/-- **C83 (spot).** The spot is the middle third of the propagated field, of the size asked for. -/
theorem C83_crop {α : Type} (n : ℕ) (field : List α) (hf : field.length = 3 * n) :
    (cropField n field).length = n ∧ ∀ i, i < n → (cropField n field)[i]? = field[n + i]? := by
  unfold cropField pySlice sliceBound
  have e1 : (if ((n : ℕ) : ℤ) < 0 then ((field.length : ℤ) + n).toNat else min ((n : ℕ) : ℤ).toNat field.length) = n := by
    rw [if_neg (by omega)]; omega
  rw [e1]
  rcases Nat.eq_zero_or_pos n with h0 | h0
  · subst h0
    have : field = [] := List.eq_nil_of_length_eq_zero (by omega)
    subst this
    simp
  · have e2 : (if -(n : ℤ) < 0 then ((field.length : ℤ) + -(n : ℤ)).toNat else min (-(n : ℤ)).toNat field.length) = 2 * n := by
      rw [if_pos (by omega)]; omega
    rw [e2]
    refine ⟨by simp; omega, fun i hi => ?_⟩
    rw [List.getElem?_drop, List.getElem?_take, if_pos (by omega)]

example : cropField 2 [0, 1, 2, 3, 4, 5] = [2, 3] := by decide

/-! ### C84 -/

/-- **C84 (field).** The spot covers the field asked for: number of elements times their angle, whatever the height of the beacon. -/
theorem C84_field (rad2asec scale height : ℝ) (nOut : ℕ) (hr : rad2asec ≠ 0) (hh : height ≠ 0) : lgsFov rad2asec scale height nOut = nOut * scale := by
  unfold lgsFov; field_simp

/-- **C84 (scale).** Elements of the laser spot and of the sub-aperture image have the same angle exactly if the sub-aperture has `diam * fov / wavelength` elements, that is with a field stop (and no rounding). -/
theorem C84_scale_partial (fov lam diam : ℝ) (n nFft : ℕ) (hl : 0 < lam) (hd : 0 < diam) (hN : 0 < nFft) :
    lgsScale fov nFft = imageScale lam diam n nFft ↔ (n : ℝ) = diam * fov / lam := by
  have hN' : (0 : ℝ) < nFft := by exact_mod_cast hN
  unfold lgsScale imageScale
  rcases Nat.eq_zero_or_pos n with h0 | h0
  · subst h0
    simp only [Nat.cast_zero, div_zero, mul_zero]
    rw [div_eq_iff hN'.ne', zero_mul]
    constructor
    · rintro rfl; simp
    · intro h
      have := h.symm
      rw [div_eq_iff hl.ne', zero_mul] at this
      rcases mul_eq_zero.mp this with h | h
      · exact absurd h hd.ne'
      · exact h
  · have hn' : (0 : ℝ) < n := by exact_mod_cast h0
    rw [div_eq_div_iff hN'.ne' (by positivity)]
    constructor
    · intro h
      have e : fov * (nFft * diam) = lam * nFft * n := by
        have := congrArg (· * (n : ℝ)) h
        field_simp at this
        linear_combination (nFft : ℝ) * this
      rw [eq_div_iff hl.ne']
      have := mul_left_cancel₀ hN'.ne' (show (nFft : ℝ) * (fov * diam) = nFft * (lam * n) by linarith)
      linarith
    · intro h
      rw [eq_div_iff hl.ne'] at h
      field_simp
      linarith

/-- **C84 is violated without a field stop**: the sub-aperture image then covers twice the field, and the laser spot is put on it twice as large as it is. -/
theorem C84_violated (fov lam diam : ℝ) (k nFft : ℕ) (hl : 0 < lam) (hd : 0 < diam) (hN : 0 < nFft) (hf : 0 < fov) (hk : (k : ℝ) = diam * fov / lam) :
    imageScale lam diam (2 * k) nFft = 2 * lgsScale fov nFft ∧ imageScale lam diam (2 * k) nFft ≠ lgsScale fov nFft := by
  have hN' : (0 : ℝ) < nFft := by exact_mod_cast hN
  have h1 : imageScale lam diam k nFft = lgsScale fov nFft := ((C84_scale_partial fov lam diam k nFft hl hd hN).mpr hk).symm
  have hk0 : (0 : ℝ) < k := by rw [hk]; positivity
  have h2 : imageScale lam diam (2 * k) nFft = 2 * imageScale lam diam k nFft := by
    unfold imageScale; push_cast; field_simp
  have hpos : 0 < lgsScale fov nFft := by unfold lgsScale; positivity
  rw [h2, h1]
  exact ⟨rfl, by linarith⟩

/-- Field 4, wavelength 1, diameter 1: without field stop 8 elements, padded to 16; the laser spot has elements of 1/4, the image of 1/2. -/
example : imageScale 1 1 8 16 = 2 * lgsScale 4 16 ∧ imageScale 1 1 8 16 ≠ lgsScale 4 16 :=
  C84_violated 4 1 1 4 16 (by norm_num) (by norm_num) (by norm_num) (by norm_num) (by norm_num)

/-! ### C85 -/

/-- Path from a source at height `h` on the axis to the edge of the pupil minus the path to its centre. -/
noncomputable def sag (D h : ℝ) : ℝ := Real.sqrt ((D / 2) ^ 2 + h ^ 2) - h

theorem sag_strictAnti (D : ℝ) (hD : 0 < D) (h h' : ℝ) (hh : 0 ≤ h) (hlt : h < h') : sag D h' < sag D h := by
  unfold sag
  have e1 := Real.sq_sqrt (show 0 ≤ (D / 2) ^ 2 + h ^ 2 by positivity)
  have e2 := Real.sq_sqrt (show 0 ≤ (D / 2) ^ 2 + h' ^ 2 by positivity)
  have g1 : h < Real.sqrt ((D / 2) ^ 2 + h ^ 2) := Real.lt_sqrt_of_sq_lt (by have : 0 < (D / 2) ^ 2 := by positivity
                                                                             linarith)
  have g2 : h' < Real.sqrt ((D / 2) ^ 2 + h' ^ 2) := Real.lt_sqrt_of_sq_lt (by have : 0 < (D / 2) ^ 2 := by positivity
                                                                               linarith)
  set a := Real.sqrt ((D / 2) ^ 2 + h ^ 2)
  set b := Real.sqrt ((D / 2) ^ 2 + h' ^ 2)
  -- `(a - h) (a + h) = (D/2)² = (b - h') (b + h')`
  have hab : a < b := by
    by_contra hc
    push Not at hc
    nlinarith
  by_contra hc
  push Not at hc
  have h1 : (a - h) * (a + h) = (b - h') * (b + h') := by nlinarith
  have h2 : a + h < b + h' := by linarith
  have h3 : 0 < a - h := by linarith
  nlinarith

theorem focal_sag (lam D gs H h : ℝ) : focalPathDiff lam D gs H h = 2 * Real.pi / lam * (sag D h - sag D H + (gs - H)) := by
  unfold focalPathDiff sag
  rw [← Real.sqrt_eq_rpow, ← Real.sqrt_eq_rpow]; ring

/-- **C85 (nominal height).** If the two configured heights agree, the layer at that height gets no phase at all. -/
theorem C85_nominal (lam D H : ℝ) (d pos : ℝ × ℝ) (x y : ℝ) : phaseAddition lam D H H d pos H x y = 0 := by
  have hf : focalPathDiff lam D H H H = 0 := by rw [focal_sag]; ring
  have ht : ∀ d pos, tiltPathDiff lam D H H d pos H = 0 := by
    intro d pos
    unfold tiltPathDiff
    simp only [sub_self, zero_add]; ring
  rw [phaseAddition, hf, ht, ht]; ring

/-- **C85 (two heights).** `GSHeight` and `lgs.height` are configured separately; the layer at `GSHeight` is without defocus exactly if they agree. -/
theorem C85_heights (lam D gs H : ℝ) (hl : 0 < lam) (hD : 0 < D) (hg : 0 ≤ gs) (hH : 0 ≤ H) : focalPathDiff lam D gs H gs = 0 ↔ gs = H := by
  constructor
  · intro h
    rw [focal_sag, mul_eq_zero] at h
    rcases h with h | h
    · have : 0 < 2 * Real.pi / lam := by have := Real.pi_pos; positivity
      linarith
    · -- `√(R² + gs²) = √(R² + H²)`
      have e : Real.sqrt ((D / 2) ^ 2 + gs ^ 2) = Real.sqrt ((D / 2) ^ 2 + H ^ 2) := by unfold sag at h; linarith
      have := congrArg (fun z : ℝ => z ^ 2) e
      beta_reduce at this
      rw [Real.sq_sqrt (by positivity), Real.sq_sqrt (by positivity)] at this
      nlinarith
  · rintro rfl; rw [focal_sag]; ring

/-- **C85 (no tilt on axis).** A laser launched from the centre towards the zenith: the layers have no tilt. -/
theorem C85_on_axis (lam D gs H h : ℝ) : tiltPathDiff lam D gs H 0 0 h = 0 := by
  unfold tiltPathDiff
  simp only [zero_div, sub_zero, mul_zero]
  rw [show (0 - D / 2) ^ 2 = (D / 2 + 0) ^ 2 by ring]; ring

/-- **C85 (sign).** Higher layers get negative, lower ones positive defocus. -/
theorem C85_sign (lam D H h : ℝ) (hl : 0 < lam) (hD : 0 < D) (hH : 0 ≤ H) (hh : 0 ≤ h) :
    (H < h → focalPathDiff lam D H H h < 0) ∧ (h < H → 0 < focalPathDiff lam D H H h) := by
  have hc : 0 < 2 * Real.pi / lam := by have := Real.pi_pos; positivity
  rw [focal_sag]
  constructor
  · intro hlt
    have := sag_strictAnti D hD H h hH hlt
    exact mul_neg_of_pos_of_neg hc (by linarith)
  · intro hlt
    have := sag_strictAnti D hD h H hh hlt
    exact mul_pos hc (by linarith)

/-- The phase between edge and centre of the pupil that a layer at height `h` on the axis has against the height of focus `H`. -/
noncomputable def wanted (lam D H h : ℝ) : ℝ := 2 * Real.pi / lam * (sag D h - sag D H)

/-- **C85 (no piston).** On axis the added phase goes from `-focalPathDiff` in the centre to `focalPathDiff` at the edge, through 0 where half of the area of the pupil is inside. -/
theorem C85_range (lam D gs H h x y : ℝ) :
    phaseAddition lam D gs H (0, 0) (0, 0) h 0 0 = -focalPathDiff lam D gs H h ∧
    (x ^ 2 + y ^ 2 = 1 → phaseAddition lam D gs H (0, 0) (0, 0) h x y = focalPathDiff lam D gs H h) ∧
    (x ^ 2 + y ^ 2 = 1 / 2 → phaseAddition lam D gs H (0, 0) (0, 0) h x y = 0) := by
  have h3 : Real.sqrt 3 ≠ 0 := by positivity
  unfold phaseAddition
  simp only [C85_on_axis]
  refine ⟨by field_simp; ring, fun e => ?_, fun e => ?_⟩ <;> rw [e] <;> field_simp <;> ring

/-- **C85 is violated**: the phase between edge and centre is twice what it should be, because the Zernike function divided by its maximum goes from -1 to 1; wrong for every layer that is not at the nominal height. -/
theorem C85_violated (lam D H h x y : ℝ) (hl : 0 < lam) (hD : 0 < D) (hH : 0 ≤ H) (hh : 0 ≤ h) (hxy : x ^ 2 + y ^ 2 = 1) :
    phaseAddition lam D H H (0, 0) (0, 0) h x y - phaseAddition lam D H H (0, 0) (0, 0) h 0 0 = 2 * wanted lam D H h ∧
    (h ≠ H → phaseAddition lam D H H (0, 0) (0, 0) h x y - phaseAddition lam D H H (0, 0) (0, 0) h 0 0 ≠ wanted lam D H h) := by
  have h3 : Real.sqrt 3 ≠ 0 := by positivity
  have e : phaseAddition lam D H H (0, 0) (0, 0) h x y - phaseAddition lam D H H (0, 0) (0, 0) h 0 0 = 2 * wanted lam D H h := by
    unfold phaseAddition
    simp only [C85_on_axis]
    rw [hxy, focal_sag, wanted]
    field_simp
    ring
  refine ⟨e, fun hne => ?_⟩
  rw [e]
  have hc : 0 < 2 * Real.pi / lam := by have := Real.pi_pos; positivity
  have hw : wanted lam D H h ≠ 0 := by
    unfold wanted
    refine mul_ne_zero hc.ne' ?_
    rcases lt_or_gt_of_ne hne with hlt | hlt
    · have := sag_strictAnti D hD h H hh hlt; linarith
    · have := sag_strictAnti D hD H h hH hlt; linarith
  intro h2; apply hw; linarith

/-- Telescope of 8 m, beacon at 90 km, layer at 95 km. -/
example : phaseAddition 1 8 90000 90000 (0, 0) (0, 0) 95000 1 0 - phaseAddition 1 8 90000 90000 (0, 0) (0, 0) 95000 0 0 ≠ wanted 1 8 90000 95000 :=
  (C85_violated 1 8 90000 95000 1 0 (by norm_num) (by norm_num) (by norm_num) (by norm_num) (by norm_num)).2 (by norm_num)

/-- **C85 (half of the amplitude would do; partial).** Half the added phase is right at centre and edge for a laser on axis. Missing: the code adds the whole. -/
theorem C85_half_partial (lam D H h x y : ℝ) (hl : 0 < lam) (hD : 0 < D) (hH : 0 ≤ H) (hh : 0 ≤ h) (hxy : x ^ 2 + y ^ 2 = 1) :
    (phaseAddition lam D H H (0, 0) (0, 0) h x y - phaseAddition lam D H H (0, 0) (0, 0) h 0 0) / 2 = wanted lam D H h := by
  rw [(C85_violated lam D H h x y hl hD hH hh hxy).1]; ring

/-- Path from a point at height `z` above position `s` to position `x` of the pupil, one axis. -/
noncomputable def lineLength (z s x : ℝ) : ℝ := Real.sqrt (z ^ 2 + (s - x) ^ 2)

/-- **C85 (tilt off axis).** The tilt number is the difference between the two edges of the pupil of the paths from the layer and from the nominal beacon; the phase added between the two edges is twice that. -/
theorem C85_tilt_violated (lam D H h d y : ℝ) :
    let s := fun z : ℝ => z * (d / H) - d
    tiltPathDiff lam D H H d 0 h =
      2 * Real.pi / lam * ((lineLength h (s h) (D / 2) - lineLength h (s h) (-(D / 2))) - (lineLength H (s H) (D / 2) - lineLength H (s H) (-(D / 2)))) ∧
    phaseAddition lam D H H (d, 0) (0, 0) h 1 y - phaseAddition lam D H H (d, 0) (0, 0) h (-1) y = 2 * tiltPathDiff lam D H H d 0 h := by
  intro s
  constructor
  · unfold tiltPathDiff lineLength
    simp only [s, sub_zero]
    rw [show h - H + H = h by ring, show (D / 2 - d + H * (d / H)) ^ 2 = (H * (d / H) - d - -(D / 2)) ^ 2 by ring,
      show (D / 2 - d + h * (d / H)) ^ 2 = (h * (d / H) - d - -(D / 2)) ^ 2 by ring]
    ring
  · unfold phaseAddition
    ring

/-! ### C64: physical propagation -/

/-- **C64 (laser).** A laser in geometric mode never gives a spot: the complex field cannot be zoomed. -/
theorem C64_laser_geometric_violated (rows cols : ℕ) (s : ℚ → ℚ → ℚ) (nFov : ℕ) (mask : ℕ → ℕ → ℚ) (hr : 4 ≤ rows) (hc : 4 ≤ cols) :
    geometricField rows cols s nFov mask = .error .typeError := by
  unfold geometricField zoom
  rw [if_neg (by omega)]; rfl

/-- **C64 (physical laser).** A laser in physical mode never leaves the telescope either, with or without a mask: the complex mask cannot be zoomed. -/
theorem C64_laser_physical_violated (mask : Option (ℕ × ℕ × (ℚ → ℚ → ℚ))) (nOut : ℕ) (hm : ∀ m, mask = some m → 4 ≤ m.1 ∧ 4 ≤ m.2.1) : physicalLaunch mask nOut = .error .typeError := by
  unfold physicalLaunch
  cases mask with
  | none => rfl
  | some m =>
    obtain ⟨h1, h2⟩ := hm m rfl
    simp only [zoom]
    rw [if_neg (by omega)]
    rfl

example (s : ℚ → ℚ → ℚ) : physicalLaunch (some (96, 96, s)) 96 = .error .typeError := C64_laser_physical_violated _ _ fun m h => by cases h; constructor <;> norm_num

/-- **C64 (sensor).** A Shack-Hartmann sensor in physical propagation is blind: whatever field reaches it, every measurement is zero (no noise; the centroids of a field of NaN are NaN). -/
theorem C64_physical_blind_violated (cents : (ℕ → ℕ → Flt) → List Flt) (n p rows cols nInterp : ℕ) (m : Slopes.Mode) (flat field : ℚ → ℚ → ℚ)
    (hr : 4 ≤ rows) (hc : 4 ≤ cols) (hp : 0 < p) (hcents : ∀ f, (∀ i j, f i j = none) → cents f = List.replicate (2 * n) none) :
    physicalSlopes cents n p rows cols nInterp m flat field = .ok (List.replicate (2 * n) (some 0)) := by
  have hf : ∀ s, physicalField rows cols s nInterp = .ok fun _ _ => none := by
    intro s; unfold physicalField zoom; rw [if_neg (by omega)]; rfl
  unfold physicalSlopes
  rw [hf, hf]
  simp only [Except.bind]
  rw [hcents _ (fun _ _ => rfl)]
  congr 1
  have hp2 : (-((p : ℚ) / 2)) ≠ 0 := by
    have : (0 : ℚ) < p := by exact_mod_cast hp
    intro h; linarith
  have hraw : (nanToNum (List.replicate (2 * n) none)).map (fun a => addF a (some (-((p : ℚ) / 2)))) = List.replicate (2 * n) (some (-((p : ℚ) / 2))) := by
    simp [nanToNum, addF]
  have hstat : shSlopes n p ⟨false, true⟩ none none (List.replicate (2 * n) none) = List.replicate (2 * n) (some (-((p : ℚ) / 2))) := by
    unfold shSlopes
    rw [hraw]; simp
  rw [hstat]
  unfold shSlopes
  rw [hraw]
  rcases Nat.eq_zero_or_pos n with h0 | h0
  · subst h0
    cases m with
    | mk a b => cases a <;> cases b <;> simp [demeanF]
  · have hany : (List.replicate (2 * n) (some (-((p : ℚ) / 2)))).any (fun z => !fltEq z (some 0)) = true := by
      rw [List.any_eq_true]
      exact ⟨some (-((p : ℚ) / 2)), by simp; omega, by simp [fltEq]; omega⟩
    have hsub : subF (List.replicate (2 * n) (some (-((p : ℚ) / 2)))) (List.replicate (2 * n) (some (-((p : ℚ) / 2)))) = List.replicate (2 * n) (some 0) := by
      unfold subF
      rw [List.zipWith_replicate]
      simp [addF, mulF]
    simp only [Option.getD_some]
    rw [if_pos hany, hsub]
    have hsum : ∀ k, sumF (List.replicate k (some 0)) = some 0 := by
      intro k
      unfold sumF
      induction k with
      | zero => rfl
      | succ k ih => rw [List.replicate_succ, List.foldl_cons, show addF (some 0) (some 0) = some 0 by simp [addF]]; exact ih
    have hdem : ∀ k, demeanF (List.replicate k (some 0)) = List.replicate k (some 0) := by
      intro k
      unfold demeanF
      rw [hsum, List.map_replicate]
      simp [addF, mulF]
    split
    · rw [List.take_replicate, List.drop_replicate, hdem, hdem, List.replicate_append_replicate]
      congr 1; omega
    · rfl

/-- One sub-aperture of four pixels. -/
example (field : ℚ → ℚ → ℚ) : physicalSlopes (fun f => [f 0 0, f 0 1]) 1 4 8 8 16 ⟨false, false⟩ (fun _ _ => 1) field = .ok [some 0, some 0] :=
  C64_physical_blind_violated _ 1 4 8 8 16 _ _ field (by norm_num) (by norm_num) (by norm_num) (fun f h => by simp [h, List.replicate])

end Soapy.Props
