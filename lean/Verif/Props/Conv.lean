/-
Property theorems C103: convolutions by Fourier transform.
-/
import Verif.Model.Conv
import Verif.Lemmas.Parseval
import Verif.Props.Tools
import Mathlib.Tactic.IntervalCases

namespace Soapy.Props

open Soapy.Spot Soapy.Tools Soapy.Conv Soapy.Lemmas Finset

/-- Index `u - j` on a cycle of length `r`. -/
def cyc (r u j : ℕ) : ℕ := (u + r - j) % r

/-- The cyclic convolution of two images `r × c`. -/
def cyclic (r c : ℕ) (a b : ℕ → ℕ → ℝ) (u v : ℕ) : ℝ := ∑ x ∈ range r ×ˢ range c, a x.1 x.2 * b (cyc r u x.1) (cyc c v x.2)

theorem cyc_lt (r u j : ℕ) (hr : 0 < r) : cyc r u j < r := Nat.mod_lt _ hr

theorem cyc_iff (r u j j' : ℕ) (hu : u < r) (hj : j < r) (hj' : j' < r) : (r : ℤ) ∣ (j : ℤ) + j' - u ↔ j' = cyc r u j := by
  unfold cyc
  constructor
  · rintro ⟨t, ht⟩
    have h1 : -1 < t := by
      by_contra h
      have : t ≤ -1 := by omega
      have : (r : ℤ) * t ≤ r * (-1) := mul_le_mul_of_nonneg_left this (by positivity)
      omega
    have h2 : t < 2 := by
      by_contra h
      have : 2 ≤ t := by omega
      have : (r : ℤ) * 2 ≤ r * t := mul_le_mul_of_nonneg_left this (by positivity)
      omega
    have : t = 0 ∨ t = 1 := by omega
    rcases this with rfl | rfl
    · rw [show u + r - j = j' + r by omega, Nat.add_mod_right, Nat.mod_eq_of_lt hj']
    · rw [show u + r - j = j' by omega, Nat.mod_eq_of_lt hj']
  · intro h
    by_cases hju : j ≤ u
    · rw [show u + r - j = (u - j) + r by omega, Nat.add_mod_right, Nat.mod_eq_of_lt (by omega)] at h
      exact ⟨0, by omega⟩
    · rw [Nat.mod_eq_of_lt (by omega)] at h
      exact ⟨1, by omega⟩

theorem kernel (r u j j' : ℕ) (hu : u < r) (hj : j < r) (hj' : j' < r) :
    ∑ p ∈ range r, cis (2 * Real.pi * ((p : ℝ) * j / r + (p : ℝ) * j' / r - (p : ℝ) * u / r)) = if j' = cyc r u j then (r : ℂ) else 0 := by
  have hr : 0 < r := by omega
  have hr' : (r : ℝ) ≠ 0 := by positivity
  have e : ∀ p : ℕ, 2 * Real.pi * ((p : ℝ) * j / r + (p : ℝ) * j' / r - (p : ℝ) * u / r) = p * (2 * Real.pi * (((j : ℤ) + j' - u : ℤ) : ℝ) / r) := by
    intro p; push_cast; field_simp
  simp only [e]
  by_cases h : (r : ℤ) ∣ (j : ℤ) + j' - u
  · rw [if_pos ((cyc_iff r u j j' hu hj hj').mp h)]
    obtain ⟨t, ht⟩ := h
    rw [ht, sum_congr rfl (g := fun _ => (1 : ℂ))]
    · simp
    · intro p _
      rw [show (p : ℝ) * (2 * Real.pi * (((r : ℤ) * t : ℤ) : ℝ) / r) = 2 * Real.pi * ((p * t : ℤ) : ℝ) by push_cast; field_simp, cis_int']
  · rw [if_neg fun hh => h ((cyc_iff r u j j' hu hj hj').mpr hh), orth r hr _ h]

theorem triple {ι : Type} (R : Finset ι) (A B : ι → ℂ) (F : ι → ι → ℂ) (G : ι → ℂ) (n : ℂ) :
    ∑ x ∈ R, ((∑ y ∈ R, A y * F x y) / n * ((∑ z ∈ R, B z * F x z) / n)) * G x = (∑ y ∈ R, ∑ z ∈ R, A y * B z * ∑ x ∈ R, F x y * F x z * G x) / n ^ 2 := by
  have e : ∀ x, ((∑ y ∈ R, A y * F x y) / n * ((∑ z ∈ R, B z * F x z) / n)) * G x = (∑ y ∈ R, ∑ z ∈ R, A y * B z * (F x y * F x z * G x)) / n ^ 2 := by
    intro x
    rw [div_mul_div_comm, sum_mul_sum, div_mul_eq_mul_div, sum_mul, ← pow_two]
    congr 1
    refine sum_congr rfl fun y _ => ?_
    rw [sum_mul]
    exact sum_congr rfl fun z _ => by ring
  simp only [e, ← sum_div]
  congr 1
  rw [sum_comm]
  refine sum_congr rfl fun y _ => ?_
  rw [sum_comm]
  exact sum_congr rfl fun z _ => by rw [mul_sum]

/-- The convolution theorem: the product is the cyclic convolution divided by the number of pixels. -/
theorem product_eq (r c : ℕ) (a b : ℕ → ℕ → ℝ) (u v : ℕ) (hu : u < r) (hv : v < c) : product r c a b u v = ((cyclic r c a b u v / (r * c) : ℝ) : ℂ) := by
  have hr : (r : ℂ) ≠ 0 := by
    have : 0 < r := by omega
    exact_mod_cast this.ne'
  have hc : (c : ℂ) ≠ 0 := by
    have : 0 < c := by omega
    exact_mod_cast this.ne'
  set R := range r ×ˢ range c with hR
  have inner : ∀ y ∈ R, ∀ z ∈ R, ∑ x ∈ R, cis (2 * Real.pi * ((x.1 : ℝ) * y.1 / r + (x.2 : ℝ) * y.2 / c)) * cis (2 * Real.pi * ((x.1 : ℝ) * z.1 / r + (x.2 : ℝ) * z.2 / c))
      * cis (-(2 * Real.pi * ((x.1 : ℝ) * u / r + (x.2 : ℝ) * v / c))) = if z = (cyc r u y.1, cyc c v y.2) then (r : ℂ) * c else 0 := by
    intro y hy z hz
    simp only [hR, mem_product, mem_range] at hy hz
    have e : ∀ x : ℕ × ℕ, cis (2 * Real.pi * ((x.1 : ℝ) * y.1 / r + (x.2 : ℝ) * y.2 / c)) * cis (2 * Real.pi * ((x.1 : ℝ) * z.1 / r + (x.2 : ℝ) * z.2 / c))
        * cis (-(2 * Real.pi * ((x.1 : ℝ) * u / r + (x.2 : ℝ) * v / c)))
        = cis (2 * Real.pi * ((x.1 : ℝ) * y.1 / r + (x.1 : ℝ) * z.1 / r - (x.1 : ℝ) * u / r)) * cis (2 * Real.pi * ((x.2 : ℝ) * y.2 / c + (x.2 : ℝ) * z.2 / c - (x.2 : ℝ) * v / c)) := by
      intro x
      rw [← cis_add', ← cis_add', ← cis_add']
      congr 1; ring
    simp only [e]
    rw [hR, sum_product' (range r) (range c) (fun p q => cis (2 * Real.pi * ((p : ℝ) * y.1 / r + (p : ℝ) * z.1 / r - (p : ℝ) * u / r)) * cis (2 * Real.pi * ((q : ℝ) * y.2 / c + (q : ℝ) * z.2 / c - (q : ℝ) * v / c))),
      ← sum_mul_sum, kernel r u y.1 z.1 hu hy.1 hz.1, kernel c v y.2 z.2 hv hy.2 hz.2]
    by_cases h1 : z.1 = cyc r u y.1
    · by_cases h2 : z.2 = cyc c v y.2
      · rw [if_pos h1, if_pos h2, if_pos (Prod.ext h1 h2)]
      · rw [if_neg h2, mul_zero, if_neg (show ¬ z = _ from fun h => h2 (congrArg Prod.snd h))]
    · rw [if_neg h1, zero_mul, if_neg (show ¬ z = _ from fun h => h1 (congrArg Prod.fst h))]
  have main : product r c a b u v = (∑ y ∈ R, ∑ z ∈ R, (a y.1 y.2 : ℂ) * (b z.1 z.2 : ℂ) * ∑ x ∈ R, cis (2 * Real.pi * ((x.1 : ℝ) * y.1 / r + (x.2 : ℝ) * y.2 / c)) * cis (2 * Real.pi * ((x.1 : ℝ) * z.1 / r + (x.2 : ℝ) * z.2 / c))
      * cis (-(2 * Real.pi * ((x.1 : ℝ) * u / r + (x.2 : ℝ) * v / c)))) / ((r : ℂ) * c) ^ 2 :=
    triple R (fun y => (a y.1 y.2 : ℂ)) (fun z => (b z.1 z.2 : ℂ)) (fun x y => cis (2 * Real.pi * ((x.1 : ℝ) * y.1 / r + (x.2 : ℝ) * y.2 / c))) (fun x => cis (-(2 * Real.pi * ((x.1 : ℝ) * u / r + (x.2 : ℝ) * v / c)))) _
  rw [main, sum_congr rfl fun y hy => sum_congr rfl fun z hz => by rw [inner y hy z hz]]
  have one : ∀ y ∈ R, ∑ z ∈ R, (a y.1 y.2 : ℂ) * (b z.1 z.2 : ℂ) * (if z = (cyc r u y.1, cyc c v y.2) then (r : ℂ) * c else 0) = (a y.1 y.2 : ℂ) * (b (cyc r u y.1) (cyc c v y.2) : ℂ) * ((r : ℂ) * c) := by
    intro y _
    simp only [mul_ite, mul_zero]
    rw [sum_ite_eq' R (cyc r u y.1, cyc c v y.2), if_pos]
    rw [hR, mem_product, mem_range, mem_range]
    exact ⟨cyc_lt r u _ (by omega), cyc_lt c v _ (by omega)⟩
  rw [sum_congr rfl one, ← sum_mul]
  unfold cyclic
  push_cast
  rw [← hR]
  field_simp

/-! ### Cyclic convolution -/

theorem cyc_cyc (r u j : ℕ) (hu : u < r) (hj : j < r) : cyc r u (cyc r u j) = j := by
  unfold cyc
  by_cases h : j ≤ u
  · rw [show u + r - j = (u - j) + r by omega, Nat.add_mod_right, Nat.mod_eq_of_lt (show u - j < r by omega), show u + r - (u - j) = j + r by omega, Nat.add_mod_right, Nat.mod_eq_of_lt hj]
  · rw [Nat.mod_eq_of_lt (show u + r - j < r by omega), show u + r - (u + r - j) = j by omega, Nat.mod_eq_of_lt hj]

/-- Going through the pixels backwards from `(u, v)` is going through all pixels. -/
theorem sum_cyc (r c : ℕ) (u v : ℕ) (hu : u < r) (hv : v < c) (f : ℕ → ℕ → ℝ) :
    ∑ x ∈ range r ×ˢ range c, f (cyc r u x.1) (cyc c v x.2) = ∑ x ∈ range r ×ˢ range c, f x.1 x.2 := by
  refine sum_bij' (fun x _ => (cyc r u x.1, cyc c v x.2)) (fun x _ => (cyc r u x.1, cyc c v x.2)) ?_ ?_ ?_ ?_ ?_
  · intro x hx
    rw [mem_product, mem_range, mem_range]
    exact ⟨cyc_lt r u _ (by omega), cyc_lt c v _ (by omega)⟩
  · intro x hx
    rw [mem_product, mem_range, mem_range]
    exact ⟨cyc_lt r u _ (by omega), cyc_lt c v _ (by omega)⟩
  · intro x hx
    rw [mem_product, mem_range, mem_range] at hx
    exact Prod.ext (cyc_cyc r u x.1 hu hx.1) (cyc_cyc c v x.2 hv hx.2)
  · intro x hx
    rw [mem_product, mem_range, mem_range] at hx
    exact Prod.ext (cyc_cyc r u x.1 hu hx.1) (cyc_cyc c v x.2 hv hx.2)
  · intro x _; rfl

theorem cyclic_comm (r c : ℕ) (a b : ℕ → ℕ → ℝ) (u v : ℕ) (hu : u < r) (hv : v < c) : cyclic r c a b u v = cyclic r c b a u v := by
  unfold cyclic
  rw [← sum_cyc r c u v hu hv fun j k => b j k * a (cyc r u j) (cyc c v k)]
  refine sum_congr rfl fun x hx => ?_
  rw [mem_product, mem_range, mem_range] at hx
  rw [cyc_cyc r u x.1 hu hx.1, cyc_cyc c v x.2 hv hx.2, mul_comm]

/-- One pixel. -/
def point (s t : ℕ) (j k : ℕ) : ℝ := if j = s ∧ k = t then 1 else 0

theorem cyclic_point (r c : ℕ) (a : ℕ → ℕ → ℝ) (s t u v : ℕ) (hs : s < r) (ht : t < c) (hu : u < r) (hv : v < c) : cyclic r c a (point s t) u v = a (cyc r u s) (cyc c v t) := by
  rw [cyclic_comm r c a _ u v hu hv]
  unfold cyclic
  rw [sum_eq_single (s, t)]
  · simp [point]
  · intro x _ hx
    have : ¬ (x.1 = s ∧ x.2 = t) := fun h => hx (Prod.ext h.1 h.2)
    simp [point, this]
  · intro h
    exact absurd (by rw [mem_product, mem_range, mem_range]; exact ⟨hs, ht⟩) h

theorem shift_perm (n i : ℕ) (hi : i < n) : npShift n i < n := Nat.mod_lt _ (by omega)

/-- Light of an image. -/
def light (r c : ℕ) (a : ℕ → ℕ → ℝ) : ℝ := ∑ x ∈ range r ×ˢ range c, a x.1 x.2

theorem cyclic_light (r c : ℕ) (a b : ℕ → ℕ → ℝ) : light r c (cyclic r c a b) = light r c a * light r c b := by
  unfold light cyclic
  rw [sum_comm, sum_mul]
  refine sum_congr rfl fun y hy => ?_
  rw [mem_product, mem_range, mem_range] at hy
  rw [← mul_sum]
  congr 1
  refine sum_bij' (fun x _ => (cyc r x.1 y.1, cyc c x.2 y.2)) (fun x _ => ((x.1 + y.1) % r, (x.2 + y.2) % c)) ?_ ?_ ?_ ?_ ?_
  · intro x hx
    rw [mem_product, mem_range, mem_range] at *
    exact ⟨cyc_lt r _ _ (by omega), cyc_lt c _ _ (by omega)⟩
  · intro x hx
    rw [mem_product, mem_range, mem_range] at *
    exact ⟨Nat.mod_lt _ (by omega), Nat.mod_lt _ (by omega)⟩
  · intro x hx
    rw [mem_product, mem_range, mem_range] at hx
    have : ∀ (r x y : ℕ), x < r → y < r → (cyc r x y + y) % r = x := by
      intro r x y h1 h2
      unfold cyc
      rw [Nat.mod_add_mod, show x + r - y + y = x + r by omega, Nat.add_mod_right, Nat.mod_eq_of_lt h1]
    exact Prod.ext (this r x.1 y.1 hx.1 hy.1) (this c x.2 y.2 hx.2 hy.2)
  · intro x hx
    rw [mem_product, mem_range, mem_range] at hx
    have : ∀ (r x y : ℕ), x < r → y < r → cyc r ((x + y) % r) y = x := by
      intro r x y h1 h2
      unfold cyc
      by_cases h : x + y < r
      · rw [Nat.mod_eq_of_lt h, show x + y + r - y = x + r by omega, Nat.add_mod_right, Nat.mod_eq_of_lt h1]
      · rw [show x + y = (x + y - r) + r by omega, Nat.add_mod_right, Nat.mod_eq_of_lt (show x + y - r < r by omega), show x + y - r + r - y = x by omega, Nat.mod_eq_of_lt h1]
    exact Prod.ext (this r x.1 y.1 hx.1 hy.1) (this c x.2 y.2 hx.2 hy.2)
  · intro x _; rfl

/-! ### The three convolutions -/

/-- **C103 (what is computed).** Every pixel of `convolve` is a pixel of the cyclic convolution of the two images, divided by the number of pixels and shifted by half the size. -/
theorem C103_convolve (r c : ℕ) (a b : ℕ → ℕ → ℝ) (i j : ℕ) (hi : i < r) (hj : j < c) :
    convolve r c a b i j = cyclic r c a b (npShift r i) (npShift c j) / (r * c) := by
  unfold convolve
  rw [product_eq r c a b _ _ (shift_perm r i hi) (shift_perm c j hj), Complex.ofReal_re]

/-- **C103 (order).** The order of the images does not matter. -/
theorem C103_commutes (r c : ℕ) (a b : ℕ → ℕ → ℝ) (i j : ℕ) (hi : i < r) (hj : j < c) : convolve r c a b i j = convolve r c b a i j := by
  rw [C103_convolve r c a b i j hi hj, C103_convolve r c b a i j hi hj, cyclic_comm r c a b _ _ (shift_perm r i hi) (shift_perm c j hj)]

theorem light_perm (r c : ℕ) (f : ℕ → ℕ → ℝ) (p q p' q' : ℕ → ℕ) (hp : ∀ i < r, p i < r ∧ p' i < r ∧ p' (p i) = i ∧ p (p' i) = i) (hq : ∀ i < c, q i < c ∧ q' i < c ∧ q' (q i) = i ∧ q (q' i) = i) :
    light r c (fun i j => f (p i) (q j)) = light r c f := by
  unfold light
  refine sum_bij' (fun x _ => (p x.1, q x.2)) (fun x _ => (p' x.1, q' x.2)) ?_ ?_ ?_ ?_ ?_
  · intro x hx
    rw [mem_product, mem_range, mem_range] at *
    exact ⟨(hp _ hx.1).1, (hq _ hx.2).1⟩
  · intro x hx
    rw [mem_product, mem_range, mem_range] at *
    exact ⟨(hp _ hx.1).2.1, (hq _ hx.2).2.1⟩
  · intro x hx
    rw [mem_product, mem_range, mem_range] at hx
    exact Prod.ext (hp _ hx.1).2.2.1 (hq _ hx.2).2.2.1
  · intro x hx
    rw [mem_product, mem_range, mem_range] at hx
    exact Prod.ext (hp _ hx.1).2.2.2 (hq _ hx.2).2.2.2
  · intro x _; rfl

theorem npShift_perm (n : ℕ) : ∀ i < n, npShift n i < n ∧ (i + n / 2) % n < n ∧ (npShift n i + n / 2) % n = i ∧ npShift n ((i + n / 2) % n) = i := by
  intro i hi
  refine ⟨shift_perm n i hi, Nat.mod_lt _ (by omega), ?_, ?_⟩
  · unfold npShift
    rw [Nat.mod_add_mod, show i + (n - n / 2) + n / 2 = i + n by omega, Nat.add_mod_right, Nat.mod_eq_of_lt hi]
  · unfold npShift
    rw [Nat.mod_add_mod, show i + n / 2 + (n - n / 2) = i + n by omega, Nat.add_mod_right, Nat.mod_eq_of_lt hi]

theorem light_congr (r c : ℕ) (f g : ℕ → ℕ → ℝ) (h : ∀ i < r, ∀ j < c, f i j = g i j) : light r c f = light r c g := by
  unfold light
  refine sum_congr rfl fun x hx => ?_
  rw [mem_product, mem_range, mem_range] at hx
  exact h _ hx.1 _ hx.2

theorem light_div (r c : ℕ) (f : ℕ → ℕ → ℝ) (d : ℝ) : light r c (fun i j => f i j / d) = light r c f / d := by
  unfold light; rw [sum_div]

/-- **C103 (light).** The light of a convolution is the product of the light of the images, divided by the number of pixels. -/
theorem C103_light (r c : ℕ) (a b : ℕ → ℕ → ℝ) : light r c (convolve r c a b) = light r c a * light r c b / (r * c) := by
  rw [light_congr r c _ (fun i j => (fun u v => cyclic r c a b u v / (r * c)) (npShift r i) (npShift c j)) (fun i hi j hj => C103_convolve r c a b i j hi hj),
    light_perm r c (fun u v => cyclic r c a b u v / (r * c)) (npShift r) (npShift c) (fun i => (i + r / 2) % r) (fun i => (i + c / 2) % c) (npShift_perm r) (npShift_perm c), light_div, cyclic_light]

theorem cyc_npShift (n i : ℕ) (hi : i < n) : cyc n (npShift n i) (n / 2) = (i + n % 2) % n := by
  unfold cyc npShift
  have h1 : (i + (n - n / 2)) % n + n - n / 2 = (i + (n - n / 2)) % n + (n - n / 2) := by omega
  rw [h1, Nat.mod_add_mod, show i + (n - n / 2) + (n - n / 2) = i + n % 2 + n by omega, Nat.add_mod_right]

/-- **C103 (middle).** Convolving with one bright pixel in the middle `(r // 2, c // 2)`: for even sizes the image itself, for odd sizes the image moved by one pixel; divided by the number of pixels. -/
theorem C103_middle (r c : ℕ) (a : ℕ → ℕ → ℝ) (i j : ℕ) (hi : i < r) (hj : j < c) :
    convolve r c a (point (r / 2) (c / 2)) i j = a ((i + r % 2) % r) ((j + c % 2) % c) / (r * c) := by
  rw [C103_convolve r c a _ i j hi hj, cyclic_point r c a _ _ _ _ (by omega) (by omega) (shift_perm r i hi) (shift_perm c j hj), cyc_npShift r i hi, cyc_npShift c j hj]

/-- **C103 (class).** What the class `Convolve` gives for even sizes is what `convolve` gives, turned by 180 degrees; so its middle pixel turns the image. -/
theorem C103_class (r c : ℕ) (hr : r % 2 = 0) (hc : c % 2 = 0) (a b : ℕ → ℕ → ℝ) (i j : ℕ) (hi : i < r) (hj : j < c) :
    convClass r c a b i j = convolve r c a b (r - 1 - i) (c - 1 - j) ∧ convClass r c a (point (r / 2) (c / 2)) i j = a (r - 1 - i) (c - 1 - j) / (r * c) := by
  have key : ∀ b, convClass r c a b i j = convolve r c a b (r - 1 - i) (c - 1 - j) := by
    intro b
    unfold convClass convolve
    rw [C63_mirrored_partial r i hr hi, C63_mirrored_partial c j hc hj]
    rfl
  refine ⟨key b, ?_⟩
  rw [key, C103_middle r c a _ _ (by omega) (by omega), hr, hc, Nat.add_zero, Nat.add_zero, Nat.mod_eq_of_lt (by omega), Nat.mod_eq_of_lt (by omega)]

/-- **C103 (uplink).** The blur of a spot with the image of the laser is what `convolve` gives. -/
theorem C103_uplink (n : ℕ) (hn : n % 2 = 0) (a b : ℕ → ℕ → ℝ) (i j : ℕ) (hi : i < n) (hj : j < n) : uplink n a b i j = convolve n n a b i j := by
  unfold uplink convolve
  rw [C63_turned_back n i hn hi, C63_turned_back n j hn hj]
  rfl

/-- **C103 (light of the uplink).** -/
theorem C103_uplink_light (n : ℕ) (hn : n % 2 = 0) (a b : ℕ → ℕ → ℝ) : light n n (uplink n a b) = light n n a * light n n b / (n * n) := by
  rw [light_congr n n _ (convolve n n a b) (fun i hi j hj => C103_uplink n hn a b i j hi hj), C103_light]

/-- An image that is the same when turned by 180 degrees: its middle is the corner between the four middle pixels. -/
def Symmetric (n : ℕ) (a : ℕ → ℕ → ℝ) : Prop := ∀ i < n, ∀ j < n, a (n - 1 - i) (n - 1 - j) = a i j

/-- **C103 (middle of the uplink).** A symmetric spot blurred with a symmetric image of the laser is symmetric about the pixel `n / 2 - 1`: half an element before the middle, on both axes. -/
theorem C103_uplink_middle (n : ℕ) (hn : n % 2 = 0) (a b : ℕ → ℕ → ℝ) (ha : Symmetric n a) (hb : Symmetric n b) (i j : ℕ) (hi : i < n) (hj : j < n) :
    uplink n a b (cyc n (n - 2) i) (cyc n (n - 2) j) = uplink n a b i j := by
  have hn0 : 0 < n := by omega
  rw [C103_uplink n hn a b _ _ (cyc_lt _ _ _ hn0) (cyc_lt _ _ _ hn0), C103_uplink n hn a b i j hi hj, C103_convolve n n a b _ _ (cyc_lt _ _ _ hn0) (cyc_lt _ _ _ hn0), C103_convolve n n a b i j hi hj]
  congr 1
  unfold cyclic
  have refl : ∀ f : ℕ → ℕ → ℝ, ∑ x ∈ range n ×ˢ range n, f (n - 1 - x.1) (n - 1 - x.2) = ∑ x ∈ range n ×ˢ range n, f x.1 x.2 := by
    intro f
    have := light_perm n n f (fun i => n - 1 - i) (fun i => n - 1 - i) (fun i => n - 1 - i) (fun i => n - 1 - i) (fun i hi => ⟨by omega, by omega, by omega, by omega⟩) (fun i hi => ⟨by omega, by omega, by omega, by omega⟩)
    exact this
  rw [← refl fun y z => a y z * b (cyc n (npShift n (cyc n (n - 2) i)) y) (cyc n (npShift n (cyc n (n - 2) j)) z)]
  refine sum_congr rfl fun x hx => ?_
  rw [mem_product, mem_range, mem_range] at hx
  rw [ha _ hx.1 _ hx.2]
  congr 1
  have step : ∀ i x, i < n → x < n → cyc n (npShift n (cyc n (n - 2) i)) (n - 1 - x) = n - 1 - cyc n (npShift n i) x := by
    intro i x hi hx
    symm
    rw [← cyc_iff n _ _ _ (shift_perm n _ (cyc_lt _ _ _ hn0)) (by omega) (by omega)]
    have h1 : (npShift n (cyc n (n - 2) i) : ℤ) ≡ (n - 2 - i) + n / 2 [ZMOD n] := by
      unfold npShift cyc
      have : (((n - 2 + n - i) % n + (n - n / 2)) % n : ℕ) = ((n - 2 + n - i) + (n - n / 2)) % n := by rw [Nat.mod_add_mod]
      rw [this, Int.natCast_mod, Int.natCast_add, Nat.cast_sub (by omega), Nat.cast_sub (by omega)]
      refine (Int.mod_modEq _ _).trans ?_
      rw [Int.modEq_iff_dvd]
      refine ⟨-1, ?_⟩
      rw [Nat.cast_add, Nat.cast_sub (by omega)]
      push_cast
      omega
    have h2 : (cyc n (npShift n i) x : ℤ) ≡ i + n / 2 - x [ZMOD n] := by
      unfold cyc npShift
      rw [Int.natCast_mod, Nat.cast_sub (by omega), Nat.cast_add, Int.natCast_mod]
      refine (Int.mod_modEq _ _).trans ?_
      have h3 : (((i + (n - n / 2) : ℕ) : ℤ) % n) ≡ i + n / 2 [ZMOD n] := by
        refine (Int.mod_modEq _ _).trans ?_
        rw [Nat.cast_add, Nat.cast_sub (by omega)]
        rw [Int.modEq_iff_dvd]
        exact ⟨0, by push_cast; omega⟩
      have h4 := (h3.add_right (n : ℤ)).sub_right (x : ℤ)
      refine h4.trans ?_
      rw [Int.modEq_iff_dvd]
      exact ⟨-1, by ring⟩
    have hc := cyc_lt n (npShift n i) x hn0
    rw [Nat.cast_sub (by omega), Nat.cast_sub (by omega), Nat.cast_sub (by omega)]
    obtain ⟨s, hs⟩ := h1.dvd
    obtain ⟨t, ht⟩ := h2.dvd
    refine ⟨s + t + 0, ?_⟩
    have hn2 : (n : ℤ) / 2 * 2 = n := by omega
    have hn1 : ((n - 1 : ℕ) : ℤ) = n - 1 := by omega
    push_cast
    linarith [hs, ht, hn2, hn1, mul_add (n : ℤ) s t]
  rw [step i x.1 hi hx.1, step j x.2 hj hx.2]
  exact hb _ (cyc_lt _ _ _ hn0) _ (cyc_lt _ _ _ hn0)

/-- What the property asks of the blur: a spot and a laser image in the middle give an image in the middle. -/
def C103_Middle : Prop := ∀ (n : ℕ) (a b : ℕ → ℕ → ℝ), n % 2 = 0 → Symmetric n a → Symmetric n b → Symmetric n (uplink n a b)

/-- And of a convolution: the light is the product of the light. -/
def C103_Light : Prop := ∀ (r c : ℕ) (a b : ℕ → ℕ → ℝ), light r c (convolve r c a b) = light r c a * light r c b

/-- And of both: they do not turn the image. -/
def C103_Class : Prop := ∀ (r c : ℕ) (a b : ℕ → ℕ → ℝ) (i j : ℕ), r % 2 = 0 → c % 2 = 0 → i < r → j < c → convClass r c a b i j = convolve r c a b i j

/-- The four middle pixels of sixteen. -/
def four4 (j k : ℕ) : ℝ := if (j = 1 ∨ j = 2) ∧ (k = 1 ∨ k = 2) then 1 else 0

theorem four4_symmetric : Symmetric 4 four4 := by
  intro i hi j hj
  interval_cases i <;> interval_cases j <;> simp [four4]

/-- **C103 is violated** in all three respects: the blur moves a spot in the middle away from it, the light is divided by the number of pixels, and the class turns the image. -/
theorem C103_violated : ¬ C103_Middle ∧ ¬ C103_Light ∧ ¬ C103_Class := by
  refine ⟨fun h => ?_, fun h => ?_, fun h => ?_⟩
  · have h1 := h 4 four4 four4 (by norm_num) four4_symmetric four4_symmetric 0 (by norm_num) 0 (by norm_num)
    rw [C103_uplink 4 (by norm_num) _ _ _ _ (by norm_num) (by norm_num), C103_uplink 4 (by norm_num) _ _ _ _ (by norm_num) (by norm_num),
      C103_convolve 4 4 _ _ _ _ (by norm_num) (by norm_num), C103_convolve 4 4 _ _ _ _ (by norm_num) (by norm_num)] at h1
    simp only [cyclic, sum_product, sum_range_succ, sum_range_zero, npShift, cyc, four4] at h1
    norm_num at h1
  · have h1 := h 2 1 (point 0 0) (point 0 0)
    rw [C103_light] at h1
    simp only [light, sum_product, sum_range_succ, sum_range_zero, point] at h1
    norm_num at h1
  · have h1 := h 2 2 (point 0 0) (point 1 1) 0 0 (by norm_num) (by norm_num) (by norm_num) (by norm_num)
    rw [show point 1 1 = point (2 / 2) (2 / 2) by rfl, (C103_class 2 2 (by norm_num) (by norm_num) _ (point 0 0) 0 0 (by norm_num) (by norm_num)).2, C103_middle 2 2 _ 0 0 (by norm_num) (by norm_num)] at h1
    norm_num [point] at h1

/-- A convolution with two even and odd sizes: the image stays on the first axis and moves by one pixel on the second. -/
example (a : ℕ → ℕ → ℝ) : convolve 4 5 a (point 2 2) 1 2 = a 1 3 / 20 := by
  have := C103_middle 4 5 a 1 2 (by norm_num) (by norm_num)
  norm_num at this ⊢
  exact this

/-- The spot of four pixels blurred with itself: symmetric about pixel 1. -/
example : uplink 4 four4 four4 2 1 = uplink 4 four4 four4 0 1 := C103_uplink_middle 4 (by norm_num) four4 four4 four4_symmetric four4_symmetric 0 1 (by norm_num) (by norm_num)

end Soapy.Props
