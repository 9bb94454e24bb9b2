/-
Property theorem C79, exact limit of stability for every delay.
-/
import Verif.Props.Converge
import Verif.Lemmas.Stable
import Mathlib.Analysis.Real.Pi.Bounds

namespace Soapy.Props

open Filter Topology

theorem settles_iff_tendsto (x : ℕ → ℚ) : Settles x ↔ Tendsto (fun n => (x n : ℝ)) atTop (𝓝 0) := by
  rw [Metric.tendsto_atTop]
  constructor
  · intro h ε hε
    obtain ⟨q, hq0, hq⟩ := exists_rat_btwn hε
    obtain ⟨N, hN⟩ := h q (by exact_mod_cast hq0)
    refine ⟨N, fun n hn => ?_⟩
    rw [Real.dist_0_eq_abs]
    have : |x n| < q := hN n hn
    have : |(x n : ℝ)| < (q : ℝ) := by exact_mod_cast this
    linarith
  · intro h ε hε
    obtain ⟨N, hN⟩ := h ε (by exact_mod_cast hε)
    refine ⟨N, fun n hn => ?_⟩
    have := hN n hn
    rw [Real.dist_0_eq_abs] at this
    exact_mod_cast this

/-- **C79 (exact, any delay).** With a delay of `d` frames the aberration goes away exactly for gains between 0 and 2 sin(π / (2 (2 d + 1))). -/
theorem C79_exact (d : ℕ) (g a : ℚ) (ha : a ≠ 0) :
    Settles (leftOver d g a) ↔ 0 < g ∧ (g : ℝ) < 2 * Real.sin (Real.pi / (2 * (2 * d + 1))) := by
  rw [settles_iff_tendsto]
  have hinit : ∀ n, n ≤ d → leftOver d g a n = a := by
    intro n
    induction n with
    | zero => intro _; rw [leftOver]
    | succ n ih =>
      intro hn
      rw [leftOver, if_neg (by omega), ih (by omega), sub_zero]
  have := Stable.tendsto_iff d g a (by exact_mod_cast ha) (fun n => (leftOver d g a n : ℝ))
    (fun n hn => by rw [hinit n hn])
    (fun n => by
      have e : leftOver d g a (n + d + 1) = leftOver d g a (n + d) - g * leftOver d g a n := by
        rw [leftOver, if_pos (by omega), show n + d - d = n by omega]
      rw [e]; push_cast; ring)
  rw [this, Stable.limitGain]
  norm_num

/-- **C79 (bounds).** With a delay of `d` frames a gain of π / (2 d + 1) or more never works; from two frames on every positive gain up to 3 / (2 d + 1) does. -/
theorem C79_bounds (d : ℕ) (g a : ℚ) (ha : a ≠ 0) :
    (Settles (leftOver d g a) → (g : ℝ) < Real.pi / (2 * d + 1)) ∧
    (2 ≤ d → 0 < g → g ≤ 3 / (2 * d + 1) → Settles (leftOver d g a)) := by
  have hd : (0 : ℝ) < 2 * d + 1 := by positivity
  constructor
  · intro h
    have h1 := ((C79_exact d g a ha).mp h).2
    have h2 := Real.sin_lt (x := Real.pi / (2 * (2 * d + 1))) (by positivity)
    have h3 : 2 * (Real.pi / (2 * (2 * d + 1))) = Real.pi / (2 * (d : ℝ) + 1) := by field_simp
    linarith
  · intro h2 h0 hg
    have hg' : (g : ℝ) ≤ 3 / (2 * d + 1) := by
      have : (g : ℝ) ≤ ((3 / (2 * d + 1) : ℚ) : ℝ) := Rat.cast_le.mpr hg
      simpa using this
    refine (C79_exact d g a ha).mpr ⟨h0, lt_of_le_of_lt hg' ?_⟩
    have hd5 : (5 : ℝ) ≤ 2 * d + 1 := by
      have : (2 : ℝ) ≤ d := by exact_mod_cast h2
      linarith
    set m : ℝ := 2 * d + 1 with hm
    have hmono : Real.sin (3.14 / (2 * m)) < Real.sin (Real.pi / (2 * m)) := by
      apply Real.sin_lt_sin_of_lt_of_le_pi_div_two
      · have : (0 : ℝ) ≤ 3.14 / (2 * m) := by positivity
        linarith [Real.pi_pos]
      · rw [div_le_div_iff₀ (by positivity) (by norm_num)]
        nlinarith [Real.pi_pos]
      · exact div_lt_div_of_pos_right Real.pi_gt_d2 (by positivity)
    have hs := Real.sin_gt_sub_cube (x := 3.14 / (2 * m)) (by positivity)
    have hx : 3 / m < 2 * (3.14 / (2 * m) - (3.14 / (2 * m)) ^ 3 / 6) := by
      rw [div_pow, ← sub_pos]
      have e : 2 * (3.14 / (2 * m) - 3.14 ^ 3 / (2 * m) ^ 3 / 6) - 3 / m = (0.14 * m ^ 2 - 3.14 ^ 3 / 24) / m ^ 3 := by
        field_simp
        ring
      rw [e]
      apply div_pos _ (by positivity)
      nlinarith
    linarith

/-- **C79 (an example of a limit).** The code's default gain of 0.6 (confParse.py 532, 1019) works with a delay of two frames and not with three or more. -/
theorem C79_default_gain (d : ℕ) (a : ℚ) (ha : a ≠ 0) : Settles (leftOver d (3 / 5) a) ↔ d ≤ 2 := by
  constructor
  · intro h
    by_contra hcon
    have h1 := (C79_bounds d (3 / 5) a ha).1 h
    have h7 : (7 : ℝ) ≤ 2 * d + 1 := by
      have : (3 : ℝ) ≤ d := by exact_mod_cast (by omega : 3 ≤ d)
      linarith
    rw [lt_div_iff₀ (by positivity)] at h1
    have := Real.pi_lt_d2
    push_cast at h1
    nlinarith
  · intro h
    rcases (by omega : d = 0 ∨ d = 1 ∨ d = 2) with rfl | rfl | rfl
    · exact (C79_no_delay_stable _ a ha).mpr ⟨by norm_num, by norm_num⟩
    · exact (C79_delay_one_stable _ a ha).mpr ⟨by norm_num, by norm_num⟩
    · exact (C79_bounds 2 _ a ha).2 (le_refl 2) (by norm_num) (by norm_num)

/-- At a delay of three frames a gain of 3 / 7 works, and 1 / 2 does not. -/
example : Settles (leftOver 3 (3 / 7) 1) ∧ ¬ Settles (leftOver 3 (1 / 2) 1) := by
  refine ⟨(C79_bounds 3 _ 1 one_ne_zero).2 (by norm_num) (by norm_num) (by norm_num), fun h => ?_⟩
  have h1 := (C79_bounds 3 _ 1 one_ne_zero).1 h
  have := Real.pi_lt_d2
  norm_num at h1
  linarith

end Soapy.Props
