/-
Propagation by the angular spectrum: inversion of the transforms, distances add up, light is conserved, plane waves stay plane.
-/
import Verif.Model.Physical
import Verif.Lemmas.Parseval
import Mathlib.Algebra.BigOperators.Field

namespace Soapy.Lemmas

open Soapy.Spot Soapy.Physical Finset

/-- The same field on the grid. -/
def Same (n : ℕ) (E E' : Field) : Prop := ∀ i < n, ∀ j < n, E i j = E' i j

theorem Same.refl (n : ℕ) (E : Field) : Same n E E := fun _ _ _ _ => rfl
theorem Same.symm {n : ℕ} {E E' : Field} (h : Same n E E') : Same n E' E := fun i hi j hj => (h i hi j hj).symm
theorem Same.trans {n : ℕ} {A B C : Field} (h : Same n A B) (h' : Same n B C) : Same n A C := fun i hi j hj => (h i hi j hj).trans (h' i hi j hj)

/-- Sums of a field times Fourier factors with sign `s`. -/
noncomputable def trans (s : ℝ) (N : ℕ) (E : Field) : Field := fun u v =>
  ∑ a ∈ range N, ∑ b ∈ range N, E a b * cis (s * (2 * Real.pi * ((u : ℝ) * a + (v : ℝ) * b) / N))

theorem trans_congr (s : ℝ) (N : ℕ) {E E' : Field} (h : Same N E E') : trans s N E = trans s N E' := by
  funext u v
  exact sum_congr rfl fun a ha => sum_congr rfl fun b hb => by rw [h a (mem_range.mp ha) b (mem_range.mp hb)]

private theorem kernel (N : ℕ) (hN : 0 < N) (s : ℝ) (hs : s = 1 ∨ s = -1) (i a : ℕ) (hi : i < N) (ha : a < N) :
    ∑ u ∈ range N, cis (s * (2 * Real.pi * ((u : ℝ) * a) / N)) * cis (-s * (2 * Real.pi * ((i : ℝ) * u) / N)) = if a = i then (N : ℂ) else 0 := by
  have h1 : ∀ d : ℤ, (∀ u : ℕ, s * (2 * Real.pi * ((u : ℝ) * a) / N) + -s * (2 * Real.pi * ((i : ℝ) * u) / N) = u * (2 * Real.pi * d / N)) →
      ∑ u ∈ range N, cis (s * (2 * Real.pi * ((u : ℝ) * a) / N)) * cis (-s * (2 * Real.pi * ((i : ℝ) * u) / N)) = ∑ u ∈ range N, cis (u * (2 * Real.pi * d / N)) := by
    intro d hd
    exact sum_congr rfl fun u _ => by rw [← cis_add', hd]
  by_cases h : a = i
  · subst h
    rw [if_pos rfl, h1 0 (fun u => by push_cast; ring)]
    simp [cis_zero']
  · rw [if_neg h]
    have hd : ∀ d : ℤ, (d = (a : ℤ) - i ∨ d = (i : ℤ) - a) → ¬ (N : ℤ) ∣ d := by
      intro d hd hdvd
      obtain ⟨q, hq⟩ := hdvd
      have hb : |d| < N := by rcases hd with rfl | rfl <;> rw [abs_lt] <;> omega
      have hne : d ≠ 0 := by rcases hd with rfl | rfl <;> omega
      exact hne (Int.eq_zero_of_abs_lt_dvd ⟨q, hq⟩ hb)
    rcases hs with rfl | rfl
    · rw [h1 ((a : ℤ) - i) (fun u => by push_cast; ring)]
      exact orth N hN _ (hd _ (Or.inl rfl))
    · rw [h1 ((i : ℤ) - a) (fun u => by push_cast; ring)]
      exact orth N hN _ (hd _ (Or.inr rfl))

theorem trans_trans (N : ℕ) (s : ℝ) (hs : s = 1 ∨ s = -1) (E : Field) (i j : ℕ) (hi : i < N) (hj : j < N) :
    trans (-s) N (trans s N E) i j = (N : ℂ) ^ 2 * E i j := by
  have hN : 0 < N := by omega
  unfold trans
  calc ∑ u ∈ range N, ∑ v ∈ range N, (∑ a ∈ range N, ∑ b ∈ range N, E a b * cis (s * (2 * Real.pi * ((u : ℝ) * a + (v : ℝ) * b) / N))) *
        cis (-s * (2 * Real.pi * ((i : ℝ) * u + (j : ℝ) * v) / N))
      = ∑ u ∈ range N, ∑ v ∈ range N, ∑ a ∈ range N, ∑ b ∈ range N, E a b * ((cis (s * (2 * Real.pi * ((u : ℝ) * a) / N)) * cis (-s * (2 * Real.pi * ((i : ℝ) * u) / N))) *
          (cis (s * (2 * Real.pi * ((v : ℝ) * b) / N)) * cis (-s * (2 * Real.pi * ((j : ℝ) * v) / N)))) := by
        refine sum_congr rfl fun u _ => sum_congr rfl fun v _ => ?_
        rw [sum_mul]
        refine sum_congr rfl fun a _ => ?_
        rw [sum_mul]
        refine sum_congr rfl fun b _ => ?_
        rw [mul_assoc, ← cis_add', ← cis_add', ← cis_add', ← cis_add']
        congr 2
        ring
    _ = ∑ a ∈ range N, ∑ b ∈ range N, E a b * ((∑ u ∈ range N, cis (s * (2 * Real.pi * ((u : ℝ) * a) / N)) * cis (-s * (2 * Real.pi * ((i : ℝ) * u) / N))) *
          (∑ v ∈ range N, cis (s * (2 * Real.pi * ((v : ℝ) * b) / N)) * cis (-s * (2 * Real.pi * ((j : ℝ) * v) / N)))) := by
        rw [sum_congr rfl fun u _ => sum_comm, sum_comm]
        refine sum_congr rfl fun a _ => ?_
        rw [sum_congr rfl fun u _ => sum_comm, sum_comm]
        refine sum_congr rfl fun b _ => ?_
        rw [sum_mul_sum, mul_sum]
        exact sum_congr rfl fun u _ => (mul_sum ..).symm
    _ = ∑ a ∈ range N, ∑ b ∈ range N, E a b * ((if a = i then (N : ℂ) else 0) * (if b = j then (N : ℂ) else 0)) := by
        refine sum_congr rfl fun a ha => sum_congr rfl fun b hb => ?_
        rw [kernel N hN s hs i a hi (mem_range.mp ha), kernel N hN s hs j b hj (mem_range.mp hb)]
    _ = (N : ℂ) ^ 2 * E i j := by
        rw [sum_eq_single_of_mem i (mem_range.mpr hi), sum_eq_single_of_mem j (mem_range.mpr hj)]
        · simp; ring
        · intro b _ hb; simp [hb]
        · intro a _ ha; exact sum_eq_zero fun b _ => by simp [ha]

theorem spectrum_eq (N : ℕ) (E : Field) : spectrum N E = trans (-1) N E := rfl

/-- A field is determined by its spectrum. -/
theorem same_of_spectrum (N : ℕ) {E E' : Field} (h : Same N (spectrum N E) (spectrum N E')) : Same N E E' := by
  intro i hi j hj
  have hN : (N : ℂ) ≠ 0 := by exact_mod_cast (by omega : N ≠ 0)
  have e := trans_trans N (-1) (Or.inr rfl) E i j hi hj
  have e' := trans_trans N (-1) (Or.inr rfl) E' i j hi hj
  rw [← spectrum_eq, trans_congr _ N h, spectrum_eq, e'] at e
  exact (mul_left_cancel₀ (pow_ne_zero 2 hN) e).symm

/-- The quadratic phase of a distance. -/
noncomputable def quad (g : Grid) (z : ℝ) (u v : ℕ) : ℂ := cis (-(g.kappa * z * (g.freq u ^ 2 + g.freq v ^ 2)))

theorem quad_add (g : Grid) (z w : ℝ) (u v : ℕ) : quad g (z + w) u v = quad g z u v * quad g w u v := by
  unfold quad; rw [← cis_add']; congr 1; ring

/-- Propagation multiplies the spectrum. -/
theorem spectrum_propagated (g : Grid) (z : ℝ) (E : Field) (u v : ℕ) (hu : u < g.n) (hv : v < g.n) :
    spectrum g.n (angularSpectrum g z E) u v = quad g z u v * spectrum g.n E u v := by
  unfold angularSpectrum
  by_cases hz : z = 0
  · rw [if_pos hz]; simp [quad, hz, cis_zero']
  · rw [if_neg hz]
    have hN : (g.n : ℂ) ≠ 0 := by exact_mod_cast (by omega : g.n ≠ 0)
    have e := trans_trans g.n 1 (Or.inl rfl) (fun u v => quad g z u v * spectrum g.n E u v) u v hu hv
    have e2 : spectrum g.n (fun i j => (∑ u ∈ range g.n, ∑ v ∈ range g.n, cis (-(g.kappa * z * (g.freq u ^ 2 + g.freq v ^ 2))) * spectrum g.n E u v *
        cis (1 * (2 * Real.pi * ((i : ℝ) * u + (j : ℝ) * v) / g.n))) / (g.n : ℂ) ^ 2) u v =
        trans (-1) g.n (trans 1 g.n (fun u v => quad g z u v * spectrum g.n E u v)) u v / (g.n : ℂ) ^ 2 := by
      rw [spectrum_eq]
      conv_lhs => unfold trans
      conv_rhs => unfold trans
      rw [sum_div]
      refine sum_congr rfl fun a _ => ?_
      rw [sum_div]
      refine sum_congr rfl fun b _ => ?_
      unfold quad
      ring
    rw [e2, e]
    field_simp

theorem propagate_congr (g : Grid) (z : ℝ) {E E' : Field} (h : Same g.n E E') : Same g.n (angularSpectrum g z E) (angularSpectrum g z E') := by
  apply same_of_spectrum
  intro u hu v hv
  rw [spectrum_propagated g z E u v hu hv, spectrum_propagated g z E' u v hu hv, spectrum_eq, spectrum_eq, trans_congr _ _ h]

/-- Two stretches of empty space are one. -/
theorem propagate_add (g : Grid) (z w : ℝ) (E : Field) : Same g.n (angularSpectrum g z (angularSpectrum g w E)) (angularSpectrum g (w + z) E) := by
  apply same_of_spectrum
  intro u hu v hv
  rw [spectrum_propagated g _ _ u v hu hv, spectrum_propagated g _ _ u v hu hv, spectrum_propagated g _ _ u v hu hv, quad_add]
  ring

/-- All the light on the grid. -/
noncomputable def power (n : ℕ) (E : Field) : ℝ := ∑ i ∈ range n, ∑ j ∈ range n, Complex.normSq (E i j)

theorem power_congr (n : ℕ) {E E' : Field} (h : Same n E E') : power n E = power n E' :=
  sum_congr rfl fun i hi => sum_congr rfl fun j hj => by rw [h i (mem_range.mp hi) j (mem_range.mp hj)]

theorem power_trans (N : ℕ) (hN : 0 < N) (s : ℝ) (hs : s = 1 ∨ s = -1) (E : Field) : power N (trans s N E) = (N : ℝ) ^ 2 * power N E :=
  parseval2 N N hN le_rfl E s hs

/-- Propagation conserves light. -/
theorem power_propagated (g : Grid) (z : ℝ) (E : Field) : power g.n (angularSpectrum g z E) = power g.n E := by
  rcases Nat.eq_zero_or_pos g.n with h0 | hN
  · simp [power, h0]
  have hN' : (g.n : ℝ) ≠ 0 := by positivity
  have e1 := power_trans g.n hN (-1) (Or.inr rfl) (angularSpectrum g z E)
  have e2 := power_trans g.n hN (-1) (Or.inr rfl) E
  have e3 : power g.n (spectrum g.n (angularSpectrum g z E)) = power g.n (spectrum g.n E) := by
    refine sum_congr rfl fun u hu => sum_congr rfl fun v hv => ?_
    rw [spectrum_propagated g z E u v (mem_range.mp hu) (mem_range.mp hv), Complex.normSq_mul, quad, cis_normSq', one_mul]
  rw [← spectrum_eq] at e1 e2
  exact mul_left_cancel₀ (pow_ne_zero 2 hN') (by rw [← e1, ← e2, e3])

/-- Plane waves stay plane. -/
theorem plane_propagated (g : Grid) (z : ℝ) (c : ℂ) : Same g.n (angularSpectrum g z fun _ _ => c) fun _ _ => c * quad g z 0 0 := by
  apply same_of_spectrum
  intro u hu v hv
  rw [spectrum_propagated g z _ u v hu hv]
  have hN : 0 < g.n := by omega
  have const : ∀ d : ℂ, spectrum g.n (fun _ _ => d) u v = d * (if u = 0 ∧ v = 0 then (g.n : ℂ) ^ 2 else 0) := by
    intro d
    unfold Physical.spectrum
    have hfac : ∀ w : ℕ, w < g.n → ∑ a ∈ range g.n, cis (-1 * (2 * Real.pi * ((w : ℝ) * a) / g.n)) = if w = 0 then (g.n : ℂ) else 0 := by
      intro w hw
      by_cases h : w = 0
      · subst h; simp [cis_zero']
      · rw [if_neg h]
        have := kernel g.n hN 1 (Or.inl rfl) w 0 hw hN
        rw [if_neg (by omega)] at this
        simpa [cis_zero'] using this
    have hsp : ∀ a b : ℕ, d * cis (-1 * (2 * Real.pi * ((u : ℝ) * a + (v : ℝ) * b) / g.n)) =
        d * (cis (-1 * (2 * Real.pi * ((u : ℝ) * a) / g.n)) * cis (-1 * (2 * Real.pi * ((v : ℝ) * b) / g.n))) := by
      intro a b; rw [← cis_add']; congr 2; ring
    simp only [hsp]
    simp only [← mul_sum, ← sum_mul]
    rw [hfac u hu, hfac v hv]
    by_cases h1 : u = 0 <;> by_cases h2 : v = 0 <;> simp [h1, h2, pow_two]
  rw [const, const]
  by_cases h : u = 0 ∧ v = 0
  · rw [if_pos h, h.1, h.2]; ring
  · rw [if_neg h]; ring

end Soapy.Lemmas
