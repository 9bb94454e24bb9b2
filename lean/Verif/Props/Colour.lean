/-
Property theorems C147: what the wavelengths of sensors and cameras matter to.
-/
import Verif.Props.Ratios
import Verif.Props.Report
import Verif.Props.SameView
import Mathlib.Analysis.SpecialFunctions.Trigonometric.Basic

namespace Soapy.Props

open Soapy.Whole Soapy.Los Soapy.Loop Soapy.Control Soapy.Mirror

/-! ### Sensors -/

/-- Two sensors that look the same way and whose measurements have the same weight for every nanometre of optical path. -/
def SamePerNm (w w' : LinWfs) : Prop :=
  w'.geom = w.geom ∧ w'.nMeas = w.nMeas ∧ w.k ≠ 0 ∧ w'.k ≠ 0 ∧ ∀ q i j, w'.coef q i j * w'.k = w.coef q i j * w.k

/-- **C147 (sensors).**  A sensor whose weights are given per nanometre measures the same at every wavelength: in every frame, whatever the screens and corrections, also if the frame fails. -/
theorem C147_sensor (w w' : LinWfs) (h : SamePerNm w w') (la da : List ℚ) (s r : Option (List Arr2)) : w'.frame la da s r = w.frame la da s r := by
  obtain ⟨hg, hn, hk, hk', hc⟩ := h
  have e : w'.cfg la da = { w.cfg la da with k := w'.k } := by simp only [LinWfs.cfg, hg]
  have hf := same_frame (w.cfg la da) w'.k hk hk' blank blank s r
  unfold LinWfs.frame
  rw [e, hg, hn]
  revert hf
  cases Los.frame (w.cfg la da) blank s r <;> cases Los.frame { w.cfg la da with k := w'.k } blank s r
  · intro hf
    rw [show _ = _ from hf]
  · exact False.elim
  · exact False.elim
  · rename_i a b
    intro hf
    have hp := hf.1.2.2
    simp only [Except.ok.injEq]
    refine List.map_congr_left fun q _ => Finset.sum_congr rfl fun i _ => Finset.sum_congr rfl fun j _ => ?_
    have h1 := hp i j
    have h2 := hc q i j
    rw [show (w.cfg la da).k = w.k from rfl] at h1
    rw [div_eq_div_iff hk hk'] at h1
    have h3 : w.coef q i j = w'.coef q i j * w'.k / w.k := by rw [h2, mul_div_cancel_right₀ _ hk]
    rw [h3]
    field_simp
    linear_combination -(w'.coef q i j) * h1

theorem sensors_colour (la da : List ℚ) (s r : Option (List Arr2)) {ws ws' : List LinWfs} (h : List.Forall₂ SamePerNm ws ws') : Whole.runWfs la da s r ws' = Whole.runWfs la da s r ws := by
  induction h with
  | nil => rfl
  | cons h _ ih => simp only [Whole.runWfs, C147_sensor _ _ h, ih]

/-- What a gradient sensor is configured with besides its wavelength: line of sight, mask and sub-apertures, and the constants of its line of sight (`2π/10⁹`, lineofsight.py:150) and of its scale (the step of `telCoord` for a
wavelength of one metre, gradient.py:54-60). -/
structure GradCfg where
  geom : Geom
  mask : ℕ → ℕ → ℚ
  subs : List (ℕ × ℕ)
  size : ℕ
  perNm : ℚ
  step : ℚ

/-- The sensor at wavelength `w` (gradient.py:54-71, lineofsight.py:150): the phase and the tilt of one arc second it is compared with are both in radians of that light. -/
def GradCfg.at_ (g : GradCfg) (w : ℚ) : LinWfs := gradWfs g.geom (g.perNm / w) g.mask g.subs g.size (g.step / w)

private theorem grad_coef (g : Geom) (k : ℚ) (mask : ℕ → ℕ → ℚ) (subs : List (ℕ × ℕ)) (s : ℕ) (a c : ℚ) (hc : c ≠ 0) (q i j : ℕ) :
    (gradWfs g k mask subs s (c * a)).coef q i j = 1 / c * (gradWfs g k mask subs s a).coef q i j := by
  have h := congrArg (fun w : LinWfs => w.coef q i j) (C143_gradient c hc g k mask subs s a)
  exact h

/-- **C147 (gradient sensors).**  Slopes are in arc seconds: a gradient sensor weighs every nanometre of optical path the same at every wavelength. -/
theorem C147_gradient (g : GradCfg) (hp : g.perNm ≠ 0) (w w' : ℚ) (hw : w ≠ 0) (hw' : w' ≠ 0) : SamePerNm (g.at_ w) (g.at_ w') := by
  refine ⟨rfl, rfl, div_ne_zero hp hw, div_ne_zero hp hw', fun q i j => ?_⟩
  have e : ∀ v : ℚ, v ≠ 0 → (g.at_ v).coef q i j = v * (gradWfs g.geom 1 g.mask g.subs g.size g.step).coef q i j := by
    intro v hv
    have := grad_coef g.geom (g.perNm / v) g.mask g.subs g.size g.step v⁻¹ (inv_ne_zero hv) q i j
    rw [one_div, inv_inv] at this
    unfold GradCfg.at_
    rw [div_eq_inv_mul g.step]
    exact this
  rw [e w hw, e w' hw']
  simp only [GradCfg.at_, gradWfs]
  field_simp

/-- **C147 (calibration).**  The wavelengths of such sensors have no influence on the interaction matrix, nor on which actuators `makeIMat` keeps. -/
theorem C147_calibration (o o' : Optics) (hs : o'.scrn = o.scrn) (hl : o'.layerAlts = o.layerAlts) (hd : o'.dmAlts = o.dmAlts) (hw : List.Forall₂ SamePerNm o.wfss o'.wfss) (n : ℕ) (dms : List Persist.Dm) :
    o'.totalMeas = o.totalMeas ∧ o'.calibrate n dms = o.calibrate n dms := by
  have ht : o'.totalMeas = o.totalMeas := by
    unfold Optics.totalMeas
    generalize o.wfss = ws at hw
    generalize o'.wfss = ws' at hw
    induction hw with
    | nil => rfl
    | cons h _ ih => simp only [List.map_cons, List.sum_cons, ih, h.2.1]
  refine ⟨ht, ?_⟩
  have hp : o'.poke = o.poke := by
    funext k a
    simp only [Optics.poke, hs, hl, hd, sensors_colour _ _ _ _ hw]
  unfold Optics.calibrate
  rw [ht, hp, hs]

/-- **C147 (loop).**  With sensors that weigh optical paths alike - gradient sensors at any wavelengths - a run is the same: commands, surfaces, measurements, records, in every frame, also if it fails. -/
theorem C147_loop (o o' : Optics) (hs : o'.scrn = o.scrn) (hl : o'.layerAlts = o.layerAlts) (hd : o'.dmAlts = o.dmAlts) (hw : List.Forall₂ SamePerNm o.wfss o'.wfss) (dms : List Persist.Dm) (P : List (List ℚ))
    (delay : ℤ) (nIters nActs : ℕ) (saveSlopes saveDm : Bool) (turb : ℕ → ℕ → ℕ → ℕ → ℚ) (ctl : List DmCtl) (frames : List (List DmCtl)) :
    runLoop (o'.sys dms P delay nIters saveSlopes saveDm) (o'.plant turb) (initial (o'.sys dms P delay nIters saveSlopes saveDm) ctl o'.totalMeas nActs ()) frames =
      runLoop (o.sys dms P delay nIters saveSlopes saveDm) (o.plant turb) (initial (o.sys dms P delay nIters saveSlopes saveDm) ctl o.totalMeas nActs ()) frames := by
  have e1 : o'.sys dms P delay nIters saveSlopes saveDm = o.sys dms P delay nIters saveSlopes saveDm := by
    simp only [Optics.sys, hs]
  have e2 : o'.plant turb = o.plant turb := by
    simp only [Optics.plant, hs, hl, hd, sensors_colour _ _ _ _ hw]
  rw [e1, e2, (C147_calibration o o' hs hl hd hw 0 []).1]

/-- Two sensors at 500 and 600 nm, both changed to 1650 nm. -/
example (g g' : GradCfg) (h : g.perNm = 44 / 7 / 10 ^ 9) (h' : g'.perNm = 44 / 7 / 10 ^ 9) :
    List.Forall₂ SamePerNm [g.at_ (500 / 10 ^ 9), g'.at_ (600 / 10 ^ 9)] [g.at_ (1650 / 10 ^ 9), g'.at_ (1650 / 10 ^ 9)] :=
  .cons (C147_gradient g (by rw [h]; norm_num) _ _ (by norm_num) (by norm_num)) (.cons (C147_gradient g' (by rw [h']; norm_num) _ _ (by norm_num) (by norm_num)) .nil)

/-- A sub-aperture of two pixels; below, a tilt of three nanometres per pixel (the last coordinate is moved inwards by `1e-9` pixels, lineofsight.py:181). -/
def tiltSensor : GradCfg := ⟨{ up := false, angle := (0, 0), launch := (0, 0), source := 0, diameter := 2, scale := 1, scrn := 2, nOut := 2 }, fun _ _ => 1, [(0, 0)], 2, 6, 3⟩

example : ((tiltSensor.at_ 1).frame [0] [] (some [⟨2, 2, fun _ j => 3 * j⟩]) none, (tiltSensor.at_ 7).frame [0] [] (some [⟨2, 2, fun _ j => 3 * j⟩]) none) = (.ok [-2999999997 / 500000000, 0], .ok [-2999999997 / 500000000, 0]) := by decide +kernel

/-! ### Cameras -/

open Soapy.Psf Soapy.Report Finset in
/-- **C147 (Strehl ratio).**  As long as the optical paths of any two lit elements differ by at most half the wavelength, the same wavefront `u` (in metres) has a Strehl ratio (with tip-tilt) that does not decrease towards longer
wavelengths. -/
theorem C147_strehl (n px : ℕ) (hpx : 0 < px) (hn : n ≤ px) (m u : ℕ → ℕ → ℝ) (hm : ∀ j k, 0 ≤ m j k) (hpos : 0 < ∑ j ∈ range n, ∑ k ∈ range n, m j k) (w w' : ℝ) (hw : 0 < w) (hle : w ≤ w')
    (hu : ∀ j < n, ∀ k < n, ∀ j' < n, ∀ k' < n, 0 < m j k → 0 < m j' k' → |u j k - u j' k'| ≤ w / 2) :
    instStrehlTT px n 0 1 px hpx m (fun j k => 2 * Real.pi / w * u j k) ≤ instStrehlTT px n 0 1 px hpx m (fun j k => 2 * Real.pi / w' * u j k) := by
  rw [C119_pairs n px hpx hn m _ hm hpos, C119_pairs n px hpx hn m _ hm hpos]
  refine div_le_div_of_nonneg_right (sum_le_sum fun p hp => sum_le_sum fun q hq => ?_) (sq_nonneg _)
  obtain ⟨hp1, hp2⟩ := mem_product.mp hp
  obtain ⟨hq1, hq2⟩ := mem_product.mp hq
  simp only [mem_range] at hp1 hp2 hq1 hq2
  rcases (hm p.1 p.2).eq_or_lt with h0 | h0
  · simp [← h0]
  rcases (hm q.1 q.2).eq_or_lt with h1 | h1
  · simp [← h1]
  refine mul_le_mul_of_nonneg_left ?_ (mul_nonneg h0.le h1.le)
  have hd := hu _ hp1 _ hp2 _ hq1 _ hq2 h0 h1
  rw [← mul_sub, ← mul_sub, ← Real.cos_abs, ← Real.cos_abs (2 * Real.pi / w' * _), abs_mul, abs_mul]
  have hpi := Real.pi_pos
  have hw' : 0 < w' := lt_of_lt_of_le hw hle
  rw [abs_of_pos (show 0 < 2 * Real.pi / w by positivity), abs_of_pos (show 0 < 2 * Real.pi / w' by positivity)]
  refine Real.cos_le_cos_of_nonneg_of_le_pi (by positivity) ?_ ?_
  · calc 2 * Real.pi / w * |u p.1 p.2 - u q.1 q.2| ≤ 2 * Real.pi / w * (w / 2) := mul_le_mul_of_nonneg_left hd (by positivity)
      _ = Real.pi := by field_simp
  · exact mul_le_mul_of_nonneg_right (div_le_div_of_nonneg_left (by positivity) hw hle) (abs_nonneg _)

open Soapy.Psf Soapy.Report Finset in
/-- **C147 (larger errors).**  The limit is needed: two elements one wavelength apart look perfect, and worse at a longer wavelength. -/
theorem C147_whole_waves : ∃ (m u : ℕ → ℕ → ℝ) (w w' : ℝ), (∀ j k, 0 ≤ m j k) ∧ 0 < w ∧ w < w' ∧
    instStrehlTT 2 2 0 1 2 (by norm_num) m (fun j k => 2 * Real.pi / w' * u j k) < instStrehlTT 2 2 0 1 2 (by norm_num) m (fun j k => 2 * Real.pi / w * u j k) := by
  refine ⟨fun j _ => if j = 0 then 1 else 0, fun _ k => k, 1, 2, fun j k => by dsimp only; split_ifs <;> norm_num, by norm_num, by norm_num, ?_⟩
  have hpos : 0 < ∑ j ∈ range 2, ∑ k ∈ range 2, (fun j _ => if j = 0 then (1 : ℝ) else 0 : ℕ → ℕ → ℝ) j k := by norm_num [sum_range_succ]
  have hm : ∀ j k : ℕ, 0 ≤ (fun j _ => if j = 0 then (1 : ℝ) else 0 : ℕ → ℕ → ℝ) j k := fun j k => by dsimp only; split_ifs <;> norm_num
  rw [C119_pairs 2 2 (by norm_num) le_rfl _ _ hm hpos, C119_pairs 2 2 (by norm_num) le_rfl _ _ hm hpos]
  simp only [sum_product, sum_range_succ, sum_range_zero]
  norm_num [Real.cos_two_pi]

end Soapy.Props
