/-
Property theorems C41 and C42: referenced slopes, tip-tilt removal, photon numbers.
-/
import Verif.Model.Slopes
import Mathlib.Tactic.Linarith
import Mathlib.Tactic.FieldSimp
import Mathlib.Tactic.Positivity
import Mathlib.Tactic.NormNum
import Mathlib.Algebra.BigOperators.Group.List.Lemmas

namespace Soapy.Props

open Soapy.Slopes

/-! ### C41 -/

theorem subStatic_get (st s : List ℚ) (h : st.length = s.length) (i : ℕ) (hi : i < s.length) :
    (subStatic (some st) s).length = s.length ∧ (subStatic (some st) s)[i]? = some (s[i] - st[i]'(by omega)) := by
  unfold subStatic
  simp only [Option.getD_some]
  split_ifs with c
  · refine ⟨by simp [h], ?_⟩
    rw [List.getElem?_zipWith]
    simp [hi, h]
  · refine ⟨rfl, ?_⟩
    have hz : st[i]'(by omega) = 0 := by
      by_contra hne
      apply c
      rw [List.any_eq_true]
      exact ⟨_, List.getElem_mem (by omega : i < st.length), by simpa using hne⟩
    rw [hz, sub_zero]
    exact List.getElem?_eq_getElem hi

theorem subStatic_length (st s : List ℚ) (h : st.length = s.length) : (subStatic (some st) s).length = s.length := by
  unfold subStatic
  simp only [Option.getD_some]
  split_ifs <;> simp [h]

theorem subStatic_self (s : List ℚ) : subStatic (some s) s = List.replicate s.length 0 := by
  apply List.ext_getElem?
  intro i
  by_cases hi : i < s.length
  · rw [(subStatic_get s s rfl i hi).2]; simp [hi]
  · rw [List.getElem?_eq_none (by rw [subStatic_length s s rfl]; omega), List.getElem?_eq_none (by simpa using hi)]

theorem getStatic_eq (n p : ℕ) (noise : Option (List ℚ)) (cents : List (Option ℚ)) : getStatic n p noise cents = centred p cents := by
  unfold getStatic slopes subStatic
  cases noise <;> simp

theorem demean_replicate (k : ℕ) : demean (List.replicate k 0) = List.replicate k 0 := by simp [demean]

/-- **C41 (reference).** Whatever centroids the flat wavefront gives (also without light), and whether or not tip-tilt is removed, the same image measures exactly zero afterwards. -/
theorem C41_reference_zero (n p : ℕ) (tt iMat : Bool) (noise : Option (List ℚ)) (cents : List (Option ℚ)) (hl : cents.length = 2 * n) :
    slopes n p ⟨tt, iMat⟩ (some (getStatic n p noise cents)) none cents = List.replicate (2 * n) 0 := by
  rw [getStatic_eq]
  unfold slopes
  dsimp only
  rw [subStatic_self]
  have hc : (centred p cents).length = 2 * n := by simp [centred, hl]
  rw [hc]
  cases tt
  · simp
  · simp only [if_true, removeTT, List.take_replicate, List.drop_replicate, demean_replicate, List.replicate_append_replicate]
    congr 1; omega

/-- **C41 (measurement).** Without tip-tilt removal, measurement `i` of a lit sub-aperture is the movement of its spot from where the reference put it. -/
theorem C41_movement (n p : ℕ) (iMat : Bool) (noise : Option (List ℚ)) (ref cents : List (Option ℚ)) (hl : cents.length = ref.length) (i : ℕ) (a b : ℚ)
    (ha : cents[i]? = some (some a)) (hb : ref[i]? = some (some b)) :
    (slopes n p ⟨false, iMat⟩ (some (getStatic n p noise ref)) none cents)[i]? = some (a - b) := by
  rw [getStatic_eq]
  have hi : i < cents.length := by by_contra h; rw [List.getElem?_eq_none (by omega)] at ha; cases ha
  have h1 : (centred p ref).length = (centred p cents).length := by simp [centred, hl]
  have h2 : i < (centred p cents).length := by simpa [centred] using hi
  have h3 : i < ref.length := by omega
  unfold slopes
  simp only [Bool.false_eq_true, if_false]
  rw [(subStatic_get _ _ h1 i h2).2]
  rw [List.getElem?_eq_getElem hi] at ha
  rw [List.getElem?_eq_getElem h3] at hb
  injection ha with ha
  injection hb with hb
  simp [centred, ha, hb]

example : slopes 2 4 ⟨false, false⟩ (some (getStatic 2 4 none [some 2, some (9 / 4), some 2, some 2])) none [some 3, some 2, some (5 / 2), some 1] =
    [1, -1 / 4, 1 / 2, -1] := by decide +kernel

/-- **C41 (centre).** Before a reference is taken, measurement `i` of a lit sub-aperture is the distance of its spot from the centre of the sub-aperture. -/
theorem C41_centre (n p : ℕ) (iMat : Bool) (cents : List (Option ℚ)) (i : ℕ) (a : ℚ) (ha : cents[i]? = some (some a)) :
    (slopes n p ⟨false, iMat⟩ none none cents)[i]? = some (a - p / 2) := by
  simp [slopes, subStatic, centred, ha]

example : slopes 1 6 ⟨false, false⟩ none none [some 3, some 4] = [0, 1] := by decide +kernel

theorem demean_sum (l : List ℚ) : (demean l).sum = 0 := by
  have key : ∀ (l : List ℚ) (c : ℚ), (l.map fun a => a - c).sum = l.sum - l.length * c := by
    intro l c
    induction l with
    | nil => simp
    | cons a l ih => simp only [List.map_cons, List.sum_cons, ih, List.length_cons]; push_cast; ring
  unfold demean
  rw [key]
  by_cases h : l.length = 0
  · have : l = [] := List.length_eq_zero_iff.mp h
    simp [this]
  · have : (l.length : ℚ) ≠ 0 := by exact_mod_cast h
    field_simp; ring

/-- **C41 (tip-tilt).** With tip-tilt removal the x measurements sum to zero and so do the y measurements; the measurement vector keeps its length. -/
theorem C41_tt_removed (n p : ℕ) (iMat : Bool) (st : List ℚ) (cents : List (Option ℚ)) (hl : cents.length = 2 * n) (hst : st.length = 2 * n) :
    let s := slopes n p ⟨true, iMat⟩ (some st) none cents
    s.length = 2 * n ∧ (s.take n).sum = 0 ∧ (s.drop n).sum = 0 := by
  have hc : (centred p cents).length = 2 * n := by simp [centred, hl]
  unfold slopes
  dsimp only
  simp only [if_true]
  have hs := subStatic_length st (centred p cents) (by rw [hst, hc])
  rw [hc] at hs
  generalize subStatic (some st) (centred p cents) = v at hs
  unfold removeTT
  have h1 : (demean (v.take n)).length = n := by simp [demean, hs]; omega
  have h2 : (demean (v.drop n)).length = n := by simp [demean, hs]; omega
  refine ⟨by rw [List.length_append, h1, h2]; omega, ?_, ?_⟩
  · rw [List.take_append_of_le_length (by omega), List.take_of_length_le (by omega)]; exact demean_sum _
  · rw [List.drop_append_of_le_length (by omega), List.drop_of_length_le (by omega), List.nil_append]; exact demean_sum _

/-- **C41 (only tip-tilt).** Differences between measurements of the same axis are kept. -/
theorem C41_tt_keeps_differences (n : ℕ) (v : List ℚ) (i j : ℕ) (hv : v.length = 2 * n) (hi : i < n) (hj : j < n) (a b c d : ℚ)
    (ha : v[i]? = some a) (hb : v[j]? = some b) (hc : v[n + i]? = some c) (hd : v[n + j]? = some d) :
    ∃ t u, (removeTT n v)[i]? = some (a - t) ∧ (removeTT n v)[j]? = some (b - t) ∧ (removeTT n v)[n + i]? = some (c - u) ∧ (removeTT n v)[n + j]? = some (d - u) := by
  have h1 : (demean (v.take n)).length = n := by simp [demean, hv]; omega
  refine ⟨(v.take n).sum / (v.take n).length, (v.drop n).sum / (v.drop n).length, ?_, ?_, ?_, ?_⟩
  · unfold removeTT
    rw [List.getElem?_append_left (by omega)]
    simp only [demean, List.getElem?_map, List.getElem?_take, if_pos hi, ha, Option.map_some]
  · unfold removeTT
    rw [List.getElem?_append_left (by omega)]
    simp only [demean, List.getElem?_map, List.getElem?_take, if_pos hj, hb, Option.map_some]
  · unfold removeTT
    rw [List.getElem?_append_right (by omega), h1]
    simp only [demean, List.getElem?_map, List.getElem?_drop, Nat.add_sub_cancel_left, hc, Option.map_some]
  · unfold removeTT
    rw [List.getElem?_append_right (by omega), h1]
    simp only [demean, List.getElem?_map, List.getElem?_drop, Nat.add_sub_cancel_left, hd, Option.map_some]

example : slopes 2 4 ⟨true, false⟩ (some [0, 0, 0, 0]) none [some 3, some 2, some (5 / 2), some 1] = [1 / 2, -1 / 2, 3 / 4, -3 / 4] := by decide +kernel

/-- **C41 (finding).** A sub-aperture without light does not measure zero: NaN is replaced by 0 before the centre is subtracted, so it measures a spot in the corner of the sub-aperture. -/
theorem C41_dark_reads_corner (n p : ℕ) (iMat : Bool) (noise : Option (List ℚ)) (ref cents : List (Option ℚ)) (hl : cents.length = ref.length) (i : ℕ) (b : ℚ)
    (ha : cents[i]? = some none) (hb : ref[i]? = some (some b)) :
    (slopes n p ⟨false, iMat⟩ (some (getStatic n p noise ref)) none cents)[i]? = some (-b) := by
  rw [getStatic_eq]
  have hi : i < cents.length := by by_contra h; rw [List.getElem?_eq_none (by omega)] at ha; cases ha
  have h1 : (centred p ref).length = (centred p cents).length := by simp [centred, hl]
  have h2 : i < (centred p cents).length := by simpa [centred] using hi
  have h3 : i < ref.length := by omega
  unfold slopes
  simp only [Bool.false_eq_true, if_false]
  rw [(subStatic_get _ _ h1 i h2).2]
  rw [List.getElem?_eq_getElem hi] at ha
  rw [List.getElem?_eq_getElem h3] at hb
  injection ha with ha
  injection hb with hb
  simp only [centred, List.getElem_map, ha, hb, Option.getD_some, Option.getD_none, Option.some.injEq]
  ring

/-- Noise is never added to an interaction matrix frame. -/
theorem C41_no_noise_in_reference (n p : ℕ) (tt : Bool) (st noise : Option (List ℚ)) (cents : List (Option ℚ)) :
    slopes n p ⟨tt, true⟩ st noise cents = slopes n p ⟨tt, true⟩ st none cents := by
  unfold slopes; cases noise <;> simp

/-! ### C42 -/

theorem sum_scale (l : List ℝ) (k : ℝ) : (l.map fun a => a * k).sum = l.sum * k := by
  rw [List.sum_map_mul_right, List.map_id']

/-- **C42 (total).** A detector image that is not dark is scaled to contain exactly the photon number, whatever units it had. -/
theorem C42_total (n : ℝ) (det : List ℝ) (h : det.sum ≠ 0) :
    ∃ d, scaleDetector n det = some d ∧ d.sum = n ∧ d.length = det.length := by
  refine ⟨_, if_neg h, ?_, by simp⟩
  have : (det.map fun a => a / det.sum * n) = det.map fun a => a * (n / det.sum) := by
    apply List.map_congr_left; intro a _; field_simp
  rw [this, sum_scale]; field_simp

/-- **C42 (units).** Scaling the incoming image does not change the read-out. -/
theorem C42_flux_independent (n k : ℝ) (hk : k ≠ 0) (det : List ℝ) : scaleDetector n (det.map fun a => a * k) = scaleDetector n det := by
  unfold scaleDetector
  rw [sum_scale]
  by_cases h : det.sum = 0
  · rw [if_pos h, if_pos (by rw [h, zero_mul])]
  · rw [if_neg h, if_neg (mul_ne_zero h hk), List.map_map]
    congr 1
    apply List.map_congr_left
    intro a _
    simp only [Function.comp_apply]
    field_simp

/-- **C42 (shape).** Brighter pixels stay brighter: each pixel gets its share of the photons. -/
theorem C42_shares (n : ℝ) (det : List ℝ) (h : det.sum ≠ 0) (d : List ℝ) (hd : scaleDetector n det = some d) (i : ℕ) (a : ℝ) (ha : det[i]? = some a) :
    ∃ b, d[i]? = some b ∧ b * det.sum = a * n := by
  unfold scaleDetector at hd
  rw [if_neg h] at hd
  injection hd with hd
  refine ⟨a / det.sum * n, by rw [← hd, List.getElem?_map, ha]; rfl, ?_⟩
  field_simp

/-- **C42 (exposure time).** Photon numbers are linear in the exposure time. -/
theorem C42_linear_time (mag ms sc zp t u k : ℝ) :
    photons mag ms sc (t + u) zp = photons mag ms sc t zp + photons mag ms sc u zp ∧ photons mag ms sc (k * t) zp = k * photons mag ms sc t zp := by
  unfold photons; constructor <;> ring

/-- **C42 (magnitudes).** 2.5 magnitudes fainter means a tenth of the photons; in general `m` magnitudes reduce them by `10 ^ (m / 2.5)`, and magnitude 0 gives the zero point times area times time. -/
theorem C42_magnitude (mag ms sc zp t m : ℝ) :
    photons (mag + 2.5) ms sc t zp = photons mag ms sc t zp / 10 ∧ photons (mag + m) ms sc t zp * (10 : ℝ) ^ (m / 2.5) = photons mag ms sc t zp ∧
    photons 0 ms sc t zp = zp * (ms * sc ^ 2) * t := by
  have key : ∀ m : ℝ, (10 : ℝ) ^ (-(mag + m) / 2.5) * (10 : ℝ) ^ (m / 2.5) = (10 : ℝ) ^ (-mag / 2.5) := by
    intro m
    rw [← Real.rpow_add (by norm_num)]
    congr 1; ring
  have hm : ∀ m : ℝ, photons (mag + m) ms sc t zp * (10 : ℝ) ^ (m / 2.5) = photons mag ms sc t zp := by
    intro m
    unfold photons
    rw [← key m]; ring
  refine ⟨?_, hm m, ?_⟩
  · have := hm 2.5
    rw [show (2.5 : ℝ) / 2.5 = 1 by norm_num, Real.rpow_one] at this
    rw [← this]; ring
  · unfold photons
    rw [neg_zero, zero_div, Real.rpow_zero]; ring

example : photons 5 100 (1 / 10) 2 1000000 = 20000 := by
  unfold photons
  rw [show (-5 : ℝ) / 2.5 = ((-2 : ℤ) : ℝ) by norm_num, Real.rpow_intCast]
  norm_num

example : scaleDetector 12 [1, 2, 3] = some [2, 4, 6] := by
  unfold scaleDetector
  norm_num

/-- **C42 (read-out).** Detector of a star of magnitude `mag + 2.5`: one tenth in every pixel. -/
theorem C42_readout (mag ms sc zp t : ℝ) (det d : List ℝ) (hd : scaleDetector (photons mag ms sc t zp) det = some d) :
    scaleDetector (photons (mag + 2.5) ms sc t zp) det = some (d.map fun a => a / 10) := by
  unfold scaleDetector at hd ⊢
  by_cases h : det.sum = 0
  · rw [if_pos h] at hd; cases hd
  · rw [if_neg h] at hd ⊢
    injection hd with hd
    rw [← hd, List.map_map, (C42_magnitude mag ms sc zp t 0).1]
    congr 1
    apply List.map_congr_left
    intro a _
    simp only [Function.comp_apply]; ring

/-- Without light there is no photon number to scale to: the read-out is NaN. -/
theorem C42_dark (n : ℝ) (det : List ℝ) (h : det.sum = 0) : scaleDetector n det = none := if_pos h

end Soapy.Props
