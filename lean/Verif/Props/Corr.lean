/-
Property theorems C153: correlation centroiding.
-/
import Verif.Model.Corr
import Verif.Props.Conv
import Verif.Lemmas.Py

namespace Soapy.Props

open Soapy.Spot Soapy.Conv Soapy.Corr Soapy.Lemmas Finset

/-! ### What the transforms give -/

private theorem fft_conj (N : ℕ) (a : ℕ → ℕ → ℝ) (hN : (N : ℂ) ≠ 0) (p q : ℕ) : fft N N (fun i j => (a i j : ℂ)) p q = (N : ℂ) * N * (starRingEnd ℂ) (ifft N N (fun i j => (a i j : ℂ)) p q) := by
  unfold fft ifft
  rw [map_div₀, map_sum]
  simp only [map_mul, cis_conj', Complex.conj_ofReal, Complex.conj_natCast]
  rw [mul_div_cancel₀ _ (mul_ne_zero hN hN)]
  refine sum_congr rfl fun x _ => ?_
  congr 3
  ring

/-- `ifft2(fft2 * fft2)` is the cyclic convolution. -/
theorem spectral_eq (N : ℕ) (a b : ℕ → ℕ → ℝ) (u v : ℕ) (hu : u < N) (hv : v < N) : spectral N a b u v = (cyclic N N a b u v : ℂ) := by
  have hN : (N : ℂ) ≠ 0 := by
    have : 0 < N := by omega
    exact_mod_cast this.ne'
  have h := congrArg (starRingEnd ℂ) (product_eq N N a b u v hu hv)
  rw [Complex.conj_ofReal] at h
  have e : spectral N a b u v = (N : ℂ) * N * (starRingEnd ℂ) (product N N a b u v) := by
    unfold spectral product
    simp only [fft_conj N _ hN]
    unfold ifft fft
    rw [map_sum, div_eq_iff (mul_ne_zero hN hN), mul_sum, sum_mul]
    refine sum_congr rfl fun x _ => ?_
    simp only [map_mul, cis_conj', neg_neg]
    rw [show 2 * Real.pi * ((u : ℝ) * x.1 / N + (v : ℝ) * x.2 / N) = 2 * Real.pi * ((x.1 : ℝ) * u / N + (x.2 : ℝ) * v / N) by ring]
    ring
  rw [e, h]
  push_cast
  field_simp

/-- **C153 (exact).** Pixel `(i, j)` of correlation image `k` is the cyclic convolution of image and reference — not their correlation — of sub-aperture `k + ⌈K/2⌉`, the middle standing for no displacement. -/
theorem C153_exact (K n P : ℕ) (sub ref : ℕ → ℕ → ℕ → ℝ) (k i j : ℕ) (hi : i < n + 2 * P) (hj : j < n + 2 * P) :
    corrImgs K n P sub ref k i j = cyclic (n + 2 * P) (n + 2 * P) (padded P n (removeMin n (sub ((k + (K - K / 2)) % K)))) (padded P n (ref ((k + (K - K / 2)) % K))) (npShift (n + 2 * P) i) (npShift (n + 2 * P) j) := by
  unfold corrImgs
  rw [spectral_eq _ _ _ _ _ (shift_perm _ i hi) (shift_perm _ j hj), Complex.ofReal_re, npShift]

/-! ### Background and brightness -/

theorem lowest_le (n : ℕ) (a : ℕ → ℕ → ℝ) (i j : ℕ) (hi : i < n) (hj : j < n) : lowest n a ≤ a i j := by
  have := (le_fold_min (s := range n ×ˢ range n) (b := a 0 0) (f := fun x => a x.1 x.2) (lowest n a)).mp le_rfl
  exact this.2 (i, j) (by simp [hi, hj])

theorem lowest_iff (n : ℕ) (hn : 0 < n) (a : ℕ → ℕ → ℝ) (m : ℝ) : m ≤ lowest n a ↔ ∀ i < n, ∀ j < n, m ≤ a i j := by
  unfold lowest
  rw [le_fold_min]
  constructor
  · intro h i hi j hj
    exact h.2 (i, j) (by simp [hi, hj])
  · intro h
    refine ⟨h 0 hn 0 hn, fun x hx => ?_⟩
    rw [mem_product, mem_range, mem_range] at hx
    exact h _ hx.1 _ hx.2

theorem removeMin_affine (n : ℕ) (a a' : ℕ → ℕ → ℝ) (c m : ℝ) (hc : 0 ≤ c) (h : ∀ i < n, ∀ j < n, a' i j = c * a i j + m) (i j : ℕ) (hi : i < n) (hj : j < n) : removeMin n a' i j = c * removeMin n a i j := by
  have hn : 0 < n := by omega
  have e : lowest n a' = c * lowest n a + m := by
    rcases hc.eq_or_lt with hc0 | hc0
    · refine le_antisymm ?_ ((lowest_iff n hn a' _).mpr fun i hi j hj => ?_)
      · rw [← hc0, zero_mul, zero_add]
        refine le_trans (lowest_le n a' i j hi hj) ?_
        rw [h i hi j hj, ← hc0, zero_mul, zero_add]
      · rw [h i hi j hj, ← hc0, zero_mul, zero_mul]
    · refine le_antisymm ?_ ((lowest_iff n hn a' _).mpr fun i hi j hj => ?_)
      · rw [← sub_le_iff_le_add, ← div_le_iff₀' hc0]
        refine (lowest_iff n hn a _).mpr fun i hi j hj => ?_
        rw [div_le_iff₀' hc0, sub_le_iff_le_add, ← h i hi j hj]
        exact lowest_le n a' i j hi hj
      · rw [h i hi j hj]
        have := mul_le_mul_of_nonneg_left (lowest_le n a i j hi hj) hc
        linarith
  unfold removeMin
  rw [e, h i hi j hj]
  ring

/-- **C153 (background and brightness).** Light spread evenly over a sub-aperture does not matter, and the correlation image is proportional to the brightness, with any padding. -/
theorem C153_background (K n P : ℕ) (sub sub' ref : ℕ → ℕ → ℕ → ℝ) (c m : ℕ → ℝ) (hc : ∀ k, 0 ≤ c k) (h : ∀ k, ∀ i < n, ∀ j < n, sub' k i j = c k * sub k i j + m k) (k i j : ℕ) (hi : i < n + 2 * P) (hj : j < n + 2 * P) :
    corrImgs K n P sub' ref k i j = c ((k + (K - K / 2)) % K) * corrImgs K n P sub ref k i j := by
  rw [C153_exact K n P sub' ref k i j hi hj, C153_exact K n P sub ref k i j hi hj]
  generalize (k + (K - K / 2)) % K = q
  unfold cyclic
  rw [mul_sum]
  refine sum_congr rfl fun x _ => ?_
  rw [← mul_assoc]
  congr 1
  unfold padded
  split_ifs with hx
  · exact removeMin_affine n (sub q) (sub' q) (c q) (m q) (hc q) (h q) _ _ (by omega) (by omega)
  · rw [mul_zero]

/-! ### Displacements -/

theorem cyc_eq (r u j : ℕ) (hu : u < r) (hj : j < r) : cyc r u j = if j ≤ u then u - j else u + r - j := by
  unfold cyc
  split_ifs with h
  · rw [show u + r - j = (u - j) + r by omega, Nat.add_mod_right, Nat.mod_eq_of_lt (by omega)]
  · exact Nat.mod_eq_of_lt (by omega)

theorem cyc_swap (r u x s : ℕ) (hu : u < r) (hx : x < r) (hs : s < r) : cyc r (cyc r u x) s = cyc r (cyc r u s) x := by
  have h1 := cyc_lt r u x (by omega)
  have h2 := cyc_lt r u s (by omega)
  rw [cyc_eq r _ s h1 hs, cyc_eq r _ x h2 hx, cyc_eq r u x hu hx, cyc_eq r u s hu hs]
  split_ifs <;> omega

theorem npShift_eq (n x : ℕ) (hx : x < n) : npShift n x = if x < n / 2 then x + (n - n / 2) else x - n / 2 := by
  unfold npShift
  split_ifs with h
  · exact Nat.mod_eq_of_lt (by omega)
  · rw [Nat.mod_eq_sub_mod (by omega), Nat.mod_eq_of_lt (by omega)]; omega

/-- An image displaced by `(s, t)` pixels; what leaves the sub-aperture comes back on the other side. -/
def displaced (n : ℕ) (s t : ℤ) (a : ℕ → ℕ → ℝ) (i j : ℕ) : ℝ := a (((i : ℤ) - s) % n).toNat (((j : ℤ) - t) % n).toNat

theorem displaced_cyc (n : ℕ) (s t : ℤ) (a : ℕ → ℕ → ℝ) (i j : ℕ) (hi : i < n) (hj : j < n) : displaced n s t a i j = a (cyc n i (s % n).toNat) (cyc n j (t % n).toNat) := by
  have key : ∀ (i : ℕ) (s : ℤ), i < n → (((i : ℤ) - s) % n).toNat = cyc n i (s % n).toNat := by
    intro i s hi
    have h0 : (0 : ℤ) < n := by omega
    have h1 := Int.emod_nonneg s h0.ne'
    have h2 := Int.emod_lt_of_pos s h0
    have e : ((i : ℤ) - s) % n = ((i : ℤ) - s % n) % n := by rw [Int.sub_emod, Int.sub_emod (i : ℤ) (s % n), Int.emod_emod]
    generalize s % (n : ℤ) = r at h1 h2 e
    obtain ⟨m, rfl⟩ := Int.eq_ofNat_of_zero_le h1
    have hm : m < n := by omega
    rw [e, Int.toNat_natCast, cyc_eq n i m hi hm]
    split_ifs with h
    · rw [Int.emod_eq_of_lt (by omega) (by omega)]; omega
    · rw [show (i : ℤ) - m = ((i : ℤ) + n - m) - n by ring, Int.sub_emod_right, Int.emod_eq_of_lt (by omega) (by omega)]; omega
  rw [displaced, key i s hi, key j t hj]

theorem cyclic_congr (r c : ℕ) (a a' b b' : ℕ → ℕ → ℝ) (ha : ∀ i < r, ∀ j < c, a i j = a' i j) (hb : ∀ i < r, ∀ j < c, b i j = b' i j) (u v : ℕ) (hu : u < r) (hv : v < c) : cyclic r c a b u v = cyclic r c a' b' u v := by
  unfold cyclic
  refine sum_congr rfl fun x hx => ?_
  rw [mem_product, mem_range, mem_range] at hx
  rw [ha _ hx.1 _ hx.2, hb _ (cyc_lt r u _ (by omega)) _ (cyc_lt c v _ (by omega))]

theorem cyclic_displaced (n : ℕ) (s t : ℕ) (hs : s < n) (ht : t < n) (a b : ℕ → ℕ → ℝ) (u v : ℕ) (hu : u < n) (hv : v < n) :
    cyclic n n (fun i j => a (cyc n i s) (cyc n j t)) b u v = cyclic n n a b (cyc n u s) (cyc n v t) := by
  rw [cyclic_comm n n _ b u v hu hv, cyclic_comm n n a b _ _ (cyc_lt n u s (by omega)) (cyc_lt n v t (by omega))]
  unfold cyclic
  refine sum_congr rfl fun x hx => ?_
  rw [mem_product, mem_range, mem_range] at hx
  dsimp only
  rw [cyc_swap n u x.1 s hu hx.1 hs, cyc_swap n v x.2 t hv hx.2 ht]

theorem padded_zero (n : ℕ) (a : ℕ → ℕ → ℝ) (i j : ℕ) (hi : i < n) (hj : j < n) : padded 0 n a i j = a i j := by
  simp [padded, hi, hj]

theorem lowest_displaced (n : ℕ) (s t : ℕ) (hs : s < n) (ht : t < n) (a a' : ℕ → ℕ → ℝ) (h : ∀ i < n, ∀ j < n, a' i j = a (cyc n i s) (cyc n j t)) : lowest n a' = lowest n a := by
  have hn : 0 < n := by omega
  refine le_antisymm ((lowest_iff n hn a _).mpr fun i hi j hj => ?_) ((lowest_iff n hn a' _).mpr fun i hi j hj => ?_)
  · have back : ∀ i s, i < n → s < n → cyc n ((i + s) % n) s = i := by
      intro i s hi hs
      rw [cyc_eq n _ s (Nat.mod_lt _ hn) hs]
      by_cases hlt : i + s < n
      · rw [Nat.mod_eq_of_lt hlt]; split_ifs <;> omega
      · rw [Nat.mod_eq_sub_mod (by omega), Nat.mod_eq_of_lt (by omega)]; split_ifs <;> omega
    have := lowest_le n a' ((i + s) % n) ((j + t) % n) (Nat.mod_lt _ hn) (Nat.mod_lt _ hn)
    rwa [h _ (Nat.mod_lt _ hn) _ (Nat.mod_lt _ hn), back i s hi hs, back j t hj ht] at this
  · rw [h i hi j hj]
    exact lowest_le n a _ _ (cyc_lt n i s hn) (cyc_lt n j t hn)

/-- **C153 (moves).** Without padding (the default): if an image is displaced, so is its correlation image, whatever the reference. -/
theorem C153_moves (K n : ℕ) (sub sub' ref : ℕ → ℕ → ℕ → ℝ) (s t : ℤ) (k : ℕ) (h : ∀ i < n, ∀ j < n, sub' ((k + (K - K / 2)) % K) i j = displaced n s t (sub ((k + (K - K / 2)) % K)) i j) (i j : ℕ) (hi : i < n) (hj : j < n) :
    corrImgs K n 0 sub' ref k i j = displaced n s t (corrImgs K n 0 sub ref k) i j := by
  have hn : 0 < n := by omega
  have mlt : ∀ s : ℤ, (s % n).toNat < n := fun s => by
    have h1 := Int.emod_nonneg s (show (n : ℤ) ≠ 0 by omega)
    have h2 := Int.emod_lt_of_pos s (show (0 : ℤ) < n by omega)
    omega
  rw [displaced_cyc n s t _ i j hi hj]
  have hc : ∀ (x : ℕ), x < n → ∀ s : ℤ, npShift n (cyc n x (s % n).toNat) = cyc n (npShift n x) (s % n).toNat := by
    intro x hx s
    have hs := mlt s
    generalize (s % n).toNat = m at hs
    rw [npShift_eq n _ (cyc_lt n x m hn), cyc_eq n _ m (shift_perm n x hx) hs, cyc_eq n x m hx hs, npShift_eq n x hx]
    split_ifs <;> omega
  rw [C153_exact K n 0 sub' ref k i j (by omega) (by omega), C153_exact K n 0 sub ref k _ _ (by have := cyc_lt n i (s % n).toNat hn; omega) (by have := cyc_lt n j (t % n).toNat hn; omega)]
  generalize (k + (K - K / 2)) % K = q at h ⊢
  simp only [Nat.mul_zero, Nat.add_zero]
  rw [hc i hi s, hc j hj t, ← cyclic_displaced n _ _ (mlt s) (mlt t) _ _ _ _ (shift_perm n i hi) (shift_perm n j hj)]
  refine cyclic_congr n n _ _ _ _ (fun i hi j hj => ?_) (fun _ _ _ _ => rfl) _ _ (shift_perm n i hi) (shift_perm n j hj)
  have h' : ∀ i < n, ∀ j < n, sub' q i j = sub q (cyc n i (s % n).toNat) (cyc n j (t % n).toNat) := fun i hi j hj => by rw [h i hi j hj, displaced_cyc n s t _ i j hi hj]
  rw [padded_zero n _ i j hi hj, padded_zero n _ _ _ (cyc_lt n i _ hn) (cyc_lt n j _ hn), removeMin, removeMin, h' i hi j hj, lowest_displaced n _ _ (mlt s) (mlt t) (sub q) (sub' q) h']

/-! ### The brightest pixel -/

/-- A reference that looks the same turned by 180 degrees about pixel `(0, 0)`, or — what is the same, the sub-aperture being closed on itself — about pixel `(n/2, n/2)` if `n` is even. -/
def PointSym (n : ℕ) (r : ℕ → ℕ → ℝ) : Prop := ∀ i < n, ∀ j < n, r ((n - i) % n) ((n - j) % n) = r i j

/-- A reference that shows where it is: no displacement other than by whole sub-apertures leaves it as it is. -/
def Distinct (n : ℕ) (r : ℕ → ℕ → ℝ) : Prop := ∀ s < n, ∀ t < n, (∀ i < n, ∀ j < n, r ((i + s) % n) ((j + t) % n) = r i j) → s = 0 ∧ t = 0

private theorem auto_le (n : ℕ) (r : ℕ → ℕ → ℝ) (s t u v : ℕ) (hs : s < n) (ht : t < n) (hu : u < n) (hv : v < n) :
    ∑ x ∈ range n ×ˢ range n, r (cyc n s x.1) (cyc n t x.2) * r (cyc n u x.1) (cyc n v x.2) = ∑ x ∈ range n ×ˢ range n, r x.1 x.2 * r x.1 x.2
      - (∑ x ∈ range n ×ˢ range n, (r (cyc n s x.1) (cyc n t x.2) - r (cyc n u x.1) (cyc n v x.2)) ^ 2) / 2 := by
  have e1 := sum_cyc n n s t hs ht fun i j => r i j * r i j
  have e2 := sum_cyc n n u v hu hv fun i j => r i j * r i j
  have e : ∑ x ∈ range n ×ˢ range n, (r (cyc n s x.1) (cyc n t x.2) - r (cyc n u x.1) (cyc n v x.2)) ^ 2 =
      ∑ x ∈ range n ×ˢ range n, r (cyc n s x.1) (cyc n t x.2) * r (cyc n s x.1) (cyc n t x.2) + ∑ x ∈ range n ×ˢ range n, r (cyc n u x.1) (cyc n v x.2) * r (cyc n u x.1) (cyc n v x.2)
        - 2 * ∑ x ∈ range n ×ˢ range n, r (cyc n s x.1) (cyc n t x.2) * r (cyc n u x.1) (cyc n v x.2) := by
    rw [mul_sum, ← sum_add_distrib, ← sum_sub_distrib]
    exact sum_congr rfl fun x _ => by ring
  rw [e, e1, e2]
  ring

private theorem cyc_zero (n i : ℕ) (hi : i < n) : cyc n 0 i = (n - i) % n := by
  unfold cyc
  congr 1
  omega

private theorem centred_turn (n : ℕ) (r : ℕ → ℕ → ℝ) (hr : PointSym n r) (x y s t : ℕ) (hx : x < n) (hy : y < n) (hs : s < n) (ht : t < n) : r (cyc n x s) (cyc n y t) = r (cyc n s x) (cyc n t y) := by
  have hn : 0 < n := by omega
  rw [← hr _ (cyc_lt n x s hn) _ (cyc_lt n y t hn)]
  have key : ∀ x s, x < n → s < n → (n - cyc n x s) % n = cyc n s x := by
    intro x s hx hs
    rw [← cyc_zero n _ (cyc_lt n x s hn), cyc_eq n 0 _ hn (cyc_lt n x s hn), cyc_eq n x s hx hs, cyc_eq n s x hs hx]
    split_ifs <;> omega
  rw [key x s hx hs, key y t hy ht]

/-- What the correlation image of a displaced reference is, up to a constant. -/
private theorem corr_reference (K n : ℕ) (sub ref : ℕ → ℕ → ℕ → ℝ) (s t : ℤ) (c m : ℝ) (hc : 0 ≤ c) (k : ℕ) (hr : PointSym n (ref ((k + (K - K / 2)) % K)))
    (h : ∀ i < n, ∀ j < n, sub ((k + (K - K / 2)) % K) i j = c * displaced n s t (ref ((k + (K - K / 2)) % K)) i j + m) : ∃ B : ℝ, ∀ i < n, ∀ j < n,
    corrImgs K n 0 sub ref k i j = B - c * (∑ x ∈ range n ×ˢ range n, (ref ((k + (K - K / 2)) % K) (cyc n (s % n).toNat x.1) (cyc n (t % n).toNat x.2)
      - ref ((k + (K - K / 2)) % K) (cyc n (npShift n i) x.1) (cyc n (npShift n j) x.2)) ^ 2) / 2 := by
  generalize hq : (k + (K - K / 2)) % K = q at h hr ⊢
  refine ⟨c * (∑ x ∈ range n ×ˢ range n, ref q x.1 x.2 * ref q x.1 x.2 - lowest n (displaced n s t (ref q)) * ∑ x ∈ range n ×ˢ range n, ref q x.1 x.2), fun i hi j hj => ?_⟩
  have hn : 0 < n := by omega
  have mlt : ∀ s : ℤ, (s % n).toNat < n := fun s => by
    have h1 := Int.emod_nonneg s (show (n : ℤ) ≠ 0 by omega)
    have h2 := Int.emod_lt_of_pos s (show (0 : ℤ) < n by omega)
    omega
  have hpi := shift_perm n i hi
  have hpj := shift_perm n j hj
  rw [C153_exact K n 0 sub ref k i j (by omega) (by omega), hq]
  simp only [Nat.mul_zero, Nat.add_zero]
  have e : cyclic n n (padded 0 n (removeMin n (sub q))) (padded 0 n (ref q)) (npShift n i) (npShift n j) =
      ∑ x ∈ range n ×ˢ range n, (c * (ref q (cyc n (s % n).toNat x.1) (cyc n (t % n).toNat x.2) * ref q (cyc n (npShift n i) x.1) (cyc n (npShift n j) x.2))
        - c * lowest n (displaced n s t (ref q)) * ref q (cyc n (npShift n i) x.1) (cyc n (npShift n j) x.2)) := by
    unfold cyclic
    refine sum_congr rfl fun x hx => ?_
    rw [mem_product, mem_range, mem_range] at hx
    rw [padded_zero n _ _ _ hx.1 hx.2, padded_zero n _ _ _ (cyc_lt n _ _ hn) (cyc_lt n _ _ hn), removeMin_affine n (displaced n s t (ref q)) (sub q) c m hc h _ _ hx.1 hx.2, removeMin,
      displaced_cyc n s t _ _ _ hx.1 hx.2, centred_turn n (ref q) hr _ _ _ _ hx.1 hx.2 (mlt s) (mlt t)]
    ring
  rw [e, sum_sub_distrib, ← mul_sum, ← mul_sum, auto_le n (ref q) _ _ _ _ (mlt s) (mlt t) hpi hpj, sum_cyc n n _ _ hpi hpj fun i j => ref q i j]
  ring

/-- **C153 (peak, partial).** Without padding (the default) and with a reference that is the same turned by 180 degrees about its middle: if the image that goes into correlation image `k` is its reference displaced by `(s, t)`, of any brightness and on any background,
the brightest pixel of the correlation image is displaced by `(s, t)` from the middle; and it is the only one if the reference shows where it is. Missing: other references, padding, and that it is the image of sub-aperture `k`. -/
theorem C153_peak_partial (K n : ℕ) (sub ref : ℕ → ℕ → ℕ → ℝ) (s t : ℤ) (c m : ℝ) (hc : 0 < c) (k : ℕ) (hr : PointSym n (ref ((k + (K - K / 2)) % K)))
    (h : ∀ i < n, ∀ j < n, sub ((k + (K - K / 2)) % K) i j = c * displaced n s t (ref ((k + (K - K / 2)) % K)) i j + m) (p q : ℕ) (hp : p < n) (hq : q < n) (hps : (n : ℤ) ∣ p - ((n / 2 : ℕ) + s)) (hqt : (n : ℤ) ∣ q - ((n / 2 : ℕ) + t)) (i j : ℕ) (hi : i < n) (hj : j < n) :
    corrImgs K n 0 sub ref k i j ≤ corrImgs K n 0 sub ref k p q ∧ (Distinct n (ref ((k + (K - K / 2)) % K)) → (i, j) ≠ (p, q) → corrImgs K n 0 sub ref k i j < corrImgs K n 0 sub ref k p q) := by
  obtain ⟨B, hB⟩ := corr_reference K n sub ref s t c m hc.le k hr h
  have hn : 0 < n := by omega
  have at_ : ∀ (p : ℕ) (s : ℤ), p < n → (n : ℤ) ∣ p - ((n / 2 : ℕ) + s) → npShift n p = (s % n).toNat := by
    intro p s hp hd
    have e : s % n = ((npShift n p : ℕ) : ℤ) := by
      have hlt := shift_perm n p hp
      rw [← Int.emod_eq_of_lt (show (0 : ℤ) ≤ (npShift n p : ℕ) by omega) (show ((npShift n p : ℕ) : ℤ) < n by omega)]
      refine (Int.emod_emod_of_dvd s (dvd_refl _)).symm.trans ?_
      rw [Int.emod_emod]
      refine Int.emod_eq_emod_iff_emod_sub_eq_zero.mpr (Int.emod_eq_zero_of_dvd ?_)
      obtain ⟨w, hw⟩ := hd
      rw [npShift_eq n p hp]
      split_ifs with h2
      · exact ⟨-w - 1, by rw [mul_sub, mul_neg, ← hw]; push_cast [Nat.div_le_self n 2]; ring⟩
      · exact ⟨-w, by rw [mul_neg, ← hw]; omega⟩
    rw [e, Int.toNat_natCast]
  rw [hB i hi j hj, hB p hp q hq, at_ p s hp hps, at_ q t hq hqt]
  simp only [sub_self, ne_eq, OfNat.ofNat_ne_zero, not_false_eq_true, zero_pow, sum_const_zero, mul_zero, zero_div, sub_zero]
  have pos := sum_nonneg (s := range n ×ˢ range n) fun x _ => sq_nonneg (ref ((k + (K - K / 2)) % K) (cyc n (s % n).toNat x.1) (cyc n (t % n).toNat x.2)
      - ref ((k + (K - K / 2)) % K) (cyc n (npShift n i) x.1) (cyc n (npShift n j) x.2))
  refine ⟨by have := mul_nonneg hc.le pos; linarith, fun hdis hne => ?_⟩
  rcases pos.eq_or_lt with h0 | h0
  · exfalso
    have hz := (sum_eq_zero_iff_of_nonneg fun x _ => sq_nonneg _).mp h0.symm
    have hpi := shift_perm n i hi
    have hpj := shift_perm n j hj
    have hsp : (s % n).toNat < n := by rw [← at_ p s hp hps]; exact shift_perm n p hp
    have htq : (t % n).toNat < n := by rw [← at_ q t hq hqt]; exact shift_perm n q hq
    have key : ∀ (a b : ℕ), a < n → b < n → ∀ x < n, (x + cyc n b a) % n = cyc n b (cyc n a x) ∧ x = cyc n a (cyc n a x) := by
      intro a b ha hb x hx
      refine ⟨?_, (cyc_cyc n a x ha hx).symm⟩
      rw [cyc_eq n b (cyc n a x) hb (cyc_lt n a x hn), cyc_eq n b a hb ha, cyc_eq n a x ha hx]
      split_ifs <;> first | (rw [Nat.mod_eq_of_lt (by omega)]; omega) | (rw [Nat.mod_eq_sub_mod (by omega), Nat.mod_eq_of_lt (by omega)]; omega)
    have := hdis (cyc n (npShift n i) (s % n).toNat) (cyc_lt n _ _ hn) (cyc n (npShift n j) (t % n).toNat) (cyc_lt n _ _ hn) (by
      intro x hx y hy
      obtain ⟨a1, a2⟩ := key _ _ hsp hpi x hx
      obtain ⟨b1, b2⟩ := key _ _ htq hpj y hy
      have hxy := hz (cyc n (s % n).toNat x, cyc n (t % n).toNat y) (by rw [mem_product, mem_range, mem_range]; exact ⟨cyc_lt n _ _ hn, cyc_lt n _ _ hn⟩)
      dsimp only at hxy
      rw [← a2, ← b2, ← a1, ← b1] at hxy
      exact (sub_eq_zero.mp (pow_eq_zero_iff (two_ne_zero)|>.mp hxy)).symm)
    have same : ∀ a b, a < n → b < n → cyc n b a = 0 → b = a := by
      intro a b ha hb h
      rw [cyc_eq n b a hb ha] at h
      split_ifs at h <;> omega
    have h1 := same _ _ hsp hpi this.1
    have h2 := same _ _ htq hpj this.2
    rw [← at_ p s hp hps] at h1
    rw [← at_ q t hq hqt] at h2
    have inj : ∀ a b, a < n → b < n → npShift n a = npShift n b → a = b := by
      intro a b ha hb h
      rw [npShift_eq n a ha, npShift_eq n b hb] at h
      split_ifs at h <;> omega
    exact hne (Prod.ext (inj _ _ hi hp h1) (inj _ _ hj hq h2))
  · have := mul_pos hc h0
    linarith

/-! ### Measurements -/

/-- `(p, q)` is the only brightest pixel of an image `N × N`. -/
def Brightest (N : ℕ) (f : ℕ → ℕ → ℝ) (p q : ℕ) : Prop := p < N ∧ q < N ∧ ∀ i < N, ∀ j < N, (i, j) ≠ (p, q) → f i j < f p q

/-- A centroider that finds the brightest pixel; `off` is the coordinate of pixel 0. -/
def Finds (off : ℝ) (cent : ℕ → (ℕ → ℕ → ℝ) → ℝ × ℝ) : Prop := ∀ N f p q, Brightest N f p q → cent N f = ((p : ℝ) + off, (q : ℝ) + off)

/-- There is such a centroider. -/
theorem Finds.exists (off : ℝ) : ∃ cent, Finds off cent := by
  classical
  refine ⟨fun N f => if h : ∃ x : ℕ × ℕ, Brightest N f x.1 x.2 then ((h.choose.1 : ℝ) + off, (h.choose.2 : ℝ) + off) else (0, 0), fun N f p q hb => ?_⟩
  have hx : ∃ x : ℕ × ℕ, Brightest N f x.1 x.2 := ⟨(p, q), hb⟩
  dsimp only
  rw [dif_pos hx]
  have hs := hx.choose_spec
  have : hx.choose = (p, q) := by
    by_contra hne
    have h1 := hb.2.2 _ hs.1 _ hs.2.1 hne
    have h2 := hs.2.2 p hb.1 q hb.2.1 fun h => hne h.symm
    exact lt_asymm h1 h2
  rw [this]

/-- **C153 (measurements, partial).** Without padding, with references that are the same turned by 180 degrees and show where they are: if the image of every sub-aperture is its reference displaced by `(s, t)` within the sub-aperture, of any brightness and on any background,
measurement `k` is the displacement of sub-aperture `k + ⌈K/2⌉` (with one sub-aperture its own). Missing: that it is the displacement of sub-aperture `k`; other references; padding. -/
theorem C153_measure_partial (cent : ℕ → (ℕ → ℕ → ℝ) → ℝ × ℝ) (off : ℝ) (hcent : Finds off cent) (K n : ℕ) (coords : ℕ → ℕ × ℕ) (ref : ℕ → ℕ → ℕ → ℝ) (static : ℕ → ℝ × ℝ) (det : ℕ → ℕ → ℝ) (hr : ∀ k < K, PointSym n (ref k) ∧ Distinct n (ref k))
    (s t : ℕ → ℤ) (hs : ∀ k < K, 0 ≤ (n / 2 : ℕ) + s k ∧ (n / 2 : ℕ) + s k < n) (ht : ∀ k < K, 0 ≤ (n / 2 : ℕ) + t k ∧ (n / 2 : ℕ) + t k < n) (c m : ℕ → ℝ) (hc : ∀ k < K, 0 < c k)
    (himg : ∀ k < K, ∀ i < n, ∀ j < n, pieces coords det k i j = c k * displaced n (s k) (t k) (ref k) i j + m k) :
    ∃ f, slopesOf cent K n none coords ref static det = .ok f ∧ ∀ k < K, f k = ((s ((k + (K - K / 2)) % K) : ℝ) + off - ((n % 2 : ℕ) : ℝ) / 2, (t ((k + (K - K / 2)) % K) : ℝ) + off - ((n % 2 : ℕ) : ℝ) / 2) - static k := by
  refine ⟨_, rfl, fun k hk => ?_⟩
  have hq : (k + (K - K / 2)) % K < K := Nat.mod_lt _ (by omega)
  generalize he : (k + (K - K / 2)) % K = q at hq
  obtain ⟨p1, hp1⟩ := Int.eq_ofNat_of_zero_le (hs q hq).1
  obtain ⟨p2, hp2⟩ := Int.eq_ofNat_of_zero_le (ht q hq).1
  have l1 : p1 < n := by have := (hs q hq).2; omega
  have l2 : p2 < n := by have := (ht q hq).2; omega
  have hb : Brightest (n + 2 * 0) (corrImgs K n 0 (pieces coords det) ref k) p1 p2 := by
    refine ⟨l1, l2, fun i hi j hj hne => ?_⟩
    exact (C153_peak_partial K n (pieces coords det) ref (s q) (t q) (c q) (m q) (hc q hq) k (by rw [he]; exact (hr q hq).1) (by rw [he]; exact himg q hq) p1 p2 l1 l2 (by rw [hp1]; simp) (by rw [hp2]; simp) i j hi hj).2 (by rw [he]; exact (hr q hq).2) hne
  rw [hcent _ _ _ _ hb]
  have hh : ((n : ℕ) : ℝ) = 2 * ((n / 2 : ℕ) : ℝ) + ((n % 2 : ℕ) : ℝ) := by exact_mod_cast (Nat.div_add_mod n 2).symm
  have r1 : ((n / 2 : ℕ) : ℝ) + (s q : ℝ) = (p1 : ℝ) := by
    have h := congrArg (Int.cast : ℤ → ℝ) hp1
    rw [Int.cast_add, Int.cast_natCast, Int.cast_natCast] at h
    exact h
  have r2 : ((n / 2 : ℕ) : ℝ) + (t q : ℝ) = (p2 : ℝ) := by
    have h := congrArg (Int.cast : ℤ → ℝ) hp2
    rw [Int.cast_add, Int.cast_natCast, Int.cast_natCast] at h
    exact h
  congr 1
  refine Prod.ext ?_ ?_
  · change (p1 : ℝ) + off - (n : ℝ) / 2 = _
    rw [hh, ← r1]; ring
  · change (p2 : ℝ) + off - (n : ℝ) / 2 = _
    rw [hh, ← r2]; ring

/-- **C153 (its own image never).** With two or more sub-apertures no measurement depends on the image of its own sub-aperture, whatever the references and the padding. -/
theorem C153_own_never (K n P : ℕ) (hK : 2 ≤ K) (sub sub' ref : ℕ → ℕ → ℕ → ℝ) (k : ℕ) (hk : k < K) (h : ∀ q, q ≠ k → sub q = sub' q) : corrImgs K n P sub ref k = corrImgs K n P sub' ref k := by
  have hne : npShift K k ≠ k := by
    rw [npShift_eq K k hk]
    split_ifs <;> omega
  funext i j
  unfold corrImgs
  rw [h _ hne]

/-- **C153 (wrong shape).** A reference of a shape that is not one of the three is replaced by zeros, without a message: the measurements do not depend on the light any more. -/
theorem C153_wrong_shape (cent : ℕ → (ℕ → ℕ → ℝ) → ℝ × ℝ) (K n D : ℕ) (pad : Option ℕ) (coords : ℕ → ℕ × ℕ) (g : Given) (static : ℕ → ℝ × ℝ) (h1 : g.shape ≠ [K, n, n]) (h2 : g.shape ≠ [n, n]) (h3 : g.shape ≠ [D, D]) (det det' : ℕ → ℕ → ℝ) :
    slopesOf cent K n pad coords (reference K n D coords g) static det = slopesOf cent K n pad coords (reference K n D coords g) static det' := by
  have e : ∀ P sub, corrImgs K n P sub (reference K n D coords g) = fun _ _ _ => 0 := by
    intro P sub
    funext k i j
    have hz : padded P n (reference K n D coords g (npShift K k)) = fun _ _ => 0 := by
      funext i j
      simp [padded, reference, h1, h2, h3]
    unfold corrImgs
    rw [hz]
    simp [spectral, fft, ifft]
  unfold slopesOf
  simp only [e]

/-- **C153 (shapes).** Each of the three shapes gives sub-aperture `k` its own piece. -/
theorem C153_shapes (K n D : ℕ) (coords : ℕ → ℕ × ℕ) (px : List ℕ → ℝ) (k i j : ℕ) :
    reference K n D coords ⟨[K, n, n], px⟩ k i j = px [k, i, j] ∧ reference K n D coords ⟨[n, n], px⟩ k i j = px [i, j] ∧ (D ≠ n → reference K n D coords ⟨[D, D], px⟩ k i j = pieces coords (fun x y => px [x, y]) k i j) := by
  refine ⟨by simp [reference], by simp [reference], fun h => by simp [reference, pieces, h]⟩

/-! ### Padding -/

/-- **C153 (size of the padding).** The padded images have the size asked for, give or take one pixel; a size at least two pixels smaller than the sub-aperture is refused. -/
theorem C153_pad (n p : ℕ) : (n ≤ p + 1 → ∃ P, padOf n (some p) = .ok P ∧ n + 2 * P ≤ p + 1 ∧ p ≤ n + 2 * P + 1) ∧ (p + 2 ≤ n → padOf n (some p) = .error .valueError) := by
  have hclose := pyRound_close (1 / 2 * ((p : ℚ) - n))
  rw [abs_le] at hclose
  have hlo : (p : ℤ) ≤ n + 2 * pyRound (1 / 2 * ((p : ℚ) - n)) + 1 := by
    have : (p : ℚ) ≤ n + 2 * (pyRound (1 / 2 * ((p : ℚ) - n)) : ℚ) + 1 := by linarith [hclose.2]
    exact_mod_cast this
  have hhi : (n : ℤ) + 2 * pyRound (1 / 2 * ((p : ℚ) - n)) ≤ p + 1 := by
    have : (n : ℚ) + 2 * (pyRound (1 / 2 * ((p : ℚ) - n)) : ℚ) ≤ p + 1 := by linarith [hclose.1]
    exact_mod_cast this
  constructor
  · intro h
    have h0 : 0 ≤ pyRound (1 / 2 * ((p : ℚ) - n)) := by
      rcases Nat.lt_or_ge p n with hlt | hge
      · have : p + 1 = n := by omega
        have e : (1 / 2 * ((p : ℚ) - n)) = ((-1 : ℤ) : ℚ) + 1 / 2 := by rw [← this]; push_cast; ring
        rw [e, pyRound_half]
        decide
      · omega
    refine ⟨(pyRound (1 / 2 * ((p : ℚ) - n))).toNat, ?_, by omega, by omega⟩
    simp only [padOf]
    rw [if_neg (by omega)]
  · intro h
    simp only [padOf]
    rw [if_pos (by omega)]

/-- **C153 (padding).** With a padding of `P` on each side, references with a dark first row and column and the same turned by 180 degrees about their middle, and images with a dark pixel that are their references displaced without anything leaving the sub-aperture: the brightest pixel of the correlation image
is where it should be in the padded image, so that every measurement is too large by `P` pixels. -/
theorem C153_padded (cent : ℕ → (ℕ → ℕ → ℝ) → ℝ × ℝ) (off : ℝ) (hcent : Finds off cent) (n p P : ℕ) (hn : 0 < n) (heven : n % 2 = 0) (hP : padOf n (some p) = .ok P) (coords : ℕ → ℕ × ℕ) (ref : ℕ → ℕ → ℝ) (static : ℕ → ℝ × ℝ) (det : ℕ → ℕ → ℝ)
    (hr : PointSym n ref) (hdark : ∀ i < n, ref 0 i = 0 ∧ ref i 0 = 0) (hdis : Distinct (n + 2 * P) (padded P n ref))
    (s t : ℤ) (hs : 0 ≤ (n / 2 + P : ℕ) + s ∧ (n / 2 + P : ℕ) + s < (n + 2 * P : ℕ)) (ht : 0 ≤ (n / 2 + P : ℕ) + t ∧ (n / 2 + P : ℕ) + t < (n + 2 * P : ℕ)) (hlow : lowest n (pieces coords det 0) = 0)
    (himg : ∀ i < n + 2 * P, ∀ j < n + 2 * P, padded P n (pieces coords det 0) i j = displaced (n + 2 * P) s t (padded P n ref) i j) :
    ∃ f, slopesOf cent 1 n (some p) coords (fun _ => ref) static det = .ok f ∧ f 0 = ((s : ℝ) + off + P, (t : ℝ) + off + P) - static 0 := by
  refine ⟨fun k => cent (n + 2 * P) (corrImgs 1 n P (pieces coords det) (fun _ => ref) k) - ((n : ℝ) / 2, (n : ℝ) / 2) - static k, by rw [slopesOf, hP]; rfl, ?_⟩
  obtain ⟨p1, hp1⟩ := Int.eq_ofNat_of_zero_le hs.1
  obtain ⟨p2, hp2⟩ := Int.eq_ofNat_of_zero_le ht.1
  have l1 : p1 < n + 2 * P := by have := hs.2; omega
  have l2 : p2 < n + 2 * P := by have := ht.2; omega
  have hrm : removeMin n (pieces coords det 0) = pieces coords det 0 := by funext i j; rw [removeMin, hlow, sub_zero]
  -- the padded reference is centred
  have hcen : PointSym (n + 2 * P) (padded P n ref) := by
    intro i hi j hj
    have one : ∀ i < n + 2 * P, ((P ≤ (n + 2 * P - i) % (n + 2 * P) ∧ (n + 2 * P - i) % (n + 2 * P) < P + n) ∧ (P ≤ i ∧ i < P + n) ∧ (n + 2 * P - i) % (n + 2 * P) - P = (n - (i - P)) % n)
        ∨ (P ≤ i ∧ i < P + n ∧ i - P = 0 ∧ ¬ (P ≤ (n + 2 * P - i) % (n + 2 * P) ∧ (n + 2 * P - i) % (n + 2 * P) < P + n)) ∨ (¬ (P ≤ i ∧ i < P + n) ∧ ¬ (P ≤ (n + 2 * P - i) % (n + 2 * P) ∧ (n + 2 * P - i) % (n + 2 * P) < P + n))
        ∨ (¬ (P ≤ i ∧ i < P + n) ∧ (P ≤ (n + 2 * P - i) % (n + 2 * P) ∧ (n + 2 * P - i) % (n + 2 * P) < P + n) ∧ (n + 2 * P - i) % (n + 2 * P) - P = 0) := by
      intro i hi
      rcases Nat.eq_zero_or_pos i with rfl | hi0
      · rw [Nat.sub_zero, Nat.mod_self]
        rcases Nat.eq_zero_or_pos P with rfl | hP0
        · left; simp [hn]
        · right; right; left; omega
      · rw [Nat.mod_eq_of_lt (show n + 2 * P - i < n + 2 * P by omega)]
        by_cases h1 : P ≤ i ∧ i < P + n
        · by_cases h2 : i = P
          · right; left; omega
          · left
            rw [Nat.mod_eq_of_lt (show n - (i - P) < n by omega)]
            omega
        · right
          right
          by_cases h3 : P ≤ n + 2 * P - i ∧ n + 2 * P - i < P + n
          · right; omega
          · left; exact ⟨h1, h3⟩
    have d1 : ∀ j < n, ref 0 j = 0 := fun j hj => (hdark j hj).1
    have d2 : ∀ j < n, ref j 0 = 0 := fun j hj => (hdark j hj).2
    unfold padded
    rcases one i hi with ⟨a1, a2, a3⟩ | ⟨a1, a2, a3, a4⟩ | ⟨a1, a2⟩ | ⟨a1, a2, a3⟩ <;> rcases one j hj with ⟨b1, b2, b3⟩ | ⟨b1, b2, b3, b4⟩ | ⟨b1, b2⟩ | ⟨b1, b2, b3⟩
    · rw [if_pos ⟨a1, b1⟩, if_pos ⟨a2, b2⟩, a3, b3, hr _ (by omega) _ (by omega)]
    · rw [if_neg (fun h => b4 h.2), if_pos ⟨a2, b1, b2⟩, b3, d2 _ (by omega)]
    · rw [if_neg (fun h => b2 h.2), if_neg (fun h => b1 h.2)]
    · rw [if_pos ⟨a1, b2⟩, if_neg (fun h => b1 h.2), b3, d2 _ (by omega)]
    · rw [if_neg (fun h => a4 h.1), if_pos ⟨⟨a1, a2⟩, b2⟩, a3, d1 _ (by omega)]
    · rw [if_neg (fun h => a4 h.1), if_pos ⟨⟨a1, a2⟩, b1, b2⟩, a3, d1 _ (by omega)]
    · rw [if_neg (fun h => a4 h.1), if_neg (fun h => b1 h.2)]
    · rw [if_neg (fun h => a4 h.1), if_neg (fun h => b1 h.2)]
    · rw [if_neg (fun h => a2 h.1), if_neg (fun h => a1 h.1)]
    · rw [if_neg (fun h => a2 h.1), if_neg (fun h => a1 h.1)]
    · rw [if_neg (fun h => a2 h.1), if_neg (fun h => a1 h.1)]
    · rw [if_neg (fun h => a2 h.1), if_neg (fun h => a1 h.1)]
    · rw [if_pos ⟨a2, b1⟩, if_neg (fun h => a1 h.1), a3, d1 _ (by omega)]
    · rw [if_neg (fun h => b4 h.2), if_neg (fun h => a1 h.1)]
    · rw [if_neg (fun h => b2 h.2), if_neg (fun h => a1 h.1)]
    · rw [if_pos ⟨a2, b2⟩, if_neg (fun h => a1 h.1), a3, d1 _ (by omega)]
  -- the same as an image of the padded size without padding
  have hN : 0 < n + 2 * P := by omega
  have low0 : lowest (n + 2 * P) (padded P n (pieces coords det 0)) = 0 := by
    have a1 : 0 ≤ lowest (n + 2 * P) (padded P n (pieces coords det 0)) := by
      refine (lowest_iff _ hN _ _).mpr fun i hi j hj => ?_
      unfold padded
      split_ifs with h
      · have := lowest_le n (pieces coords det 0) (i - P) (j - P) (by omega) (by omega)
        rwa [hlow] at this
      · exact le_rfl
    refine le_antisymm ?_ a1
    have := (lowest_iff n hn (pieces coords det 0) (lowest (n + 2 * P) (padded P n (pieces coords det 0)))).mpr fun i hi j hj => by
      have h := lowest_le (n + 2 * P) (padded P n (pieces coords det 0)) (P + i) (P + j) (by omega) (by omega)
      have e : padded P n (pieces coords det 0) (P + i) (P + j) = pieces coords det 0 i j := by simp [padded, hi, hj]
      rwa [e] at h
    rwa [hlow] at this
  have same : ∀ i < n + 2 * P, ∀ j < n + 2 * P, corrImgs 1 n P (pieces coords det) (fun _ => ref) 0 i j = corrImgs 1 (n + 2 * P) 0 (fun _ => padded P n (pieces coords det 0)) (fun _ => padded P n ref) 0 i j := by
    intro i hi j hj
    rw [C153_exact 1 n P _ _ 0 i j hi hj, C153_exact 1 (n + 2 * P) 0 _ _ 0 i j (by omega) (by omega)]
    simp only [Nat.mul_zero, Nat.add_zero, Nat.mod_one]
    rw [hrm]
    refine cyclic_congr _ _ _ _ _ _ (fun i hi j hj => ?_) (fun i hi j hj => ?_) _ _ (shift_perm _ i hi) (shift_perm _ j hj)
    · rw [padded_zero _ _ _ _ hi hj, removeMin, low0, sub_zero]
    · rw [padded_zero _ _ _ _ hi hj]
  have hhalf : (n + 2 * P) / 2 = n / 2 + P := by omega
  have hb : Brightest (n + 2 * P) (corrImgs 1 n P (pieces coords det) (fun _ => ref) 0) p1 p2 := by
    refine ⟨l1, l2, fun i hi j hj hne => ?_⟩
    rw [same i hi j hj, same p1 l1 p2 l2]
    exact (C153_peak_partial 1 (n + 2 * P) (fun _ => padded P n (pieces coords det 0)) (fun _ => padded P n ref) s t 1 0 one_pos 0 hcen (fun i hi j hj => by rw [himg i hi j hj, one_mul, add_zero]) p1 p2 l1 l2
      (by rw [hhalf, hp1]; simp) (by rw [hhalf, hp2]; simp) i j hi hj).2 hdis hne
  dsimp only
  rw [hcent _ _ _ _ hb]
  have hh : ((n : ℕ) : ℝ) = 2 * ((n / 2 : ℕ) : ℝ) := by
    have : n = 2 * (n / 2) := by omega
    exact_mod_cast this
  have r1 : ((n / 2 : ℕ) : ℝ) + P + (s : ℝ) = (p1 : ℝ) := by
    have h := congrArg (Int.cast : ℤ → ℝ) hp1
    rw [Int.cast_add, Int.cast_natCast, Int.cast_natCast, Nat.cast_add] at h
    exact h
  have r2 : ((n / 2 : ℕ) : ℝ) + P + (t : ℝ) = (p2 : ℝ) := by
    have h := congrArg (Int.cast : ℤ → ℝ) hp2
    rw [Int.cast_add, Int.cast_natCast, Int.cast_natCast, Nat.cast_add] at h
    exact h
  congr 1
  refine Prod.ext ?_ ?_
  · change (p1 : ℝ) + off - (n : ℝ) / 2 = _
    rw [hh, ← r1]; ring
  · change (p2 : ℝ) + off - (n : ℝ) / 2 = _
    rw [hh, ← r2]; ring

/-! ### What fails, and examples -/

/-- Every sub-aperture measures its own displacement, with references that are the same turned by 180 degrees. -/
def C153_Own : Prop := ∀ cent off, Finds off cent → ∀ (K n : ℕ) (coords : ℕ → ℕ × ℕ) (ref : ℕ → ℕ → ℕ → ℝ) (det : ℕ → ℕ → ℝ) (s t : ℕ → ℤ), n % 2 = 0 → (∀ k < K, PointSym n (ref k) ∧ Distinct n (ref k)) →
  (∀ k < K, 0 ≤ (n / 2 : ℕ) + s k ∧ (n / 2 : ℕ) + s k < n) → (∀ k < K, 0 ≤ (n / 2 : ℕ) + t k ∧ (n / 2 : ℕ) + t k < n) → (∀ k < K, ∀ i < n, ∀ j < n, pieces coords det k i j = displaced n (s k) (t k) (ref k) i j) →
  ∀ f, slopesOf cent K n none coords ref (fun _ => 0) det = .ok f → ∀ k < K, f k = ((s k : ℝ) + off, (t k : ℝ) + off)

/-- An image that is the reference measures zero, whatever the reference. -/
def C153_Any : Prop := ∀ cent off, Finds off cent → ∀ (n : ℕ) (ref : ℕ → ℕ → ℝ), n % 2 = 0 → Distinct n ref → ∀ f, slopesOf cent 1 n none (fun _ => (0, 0)) (fun _ => ref) (fun _ => 0) ref = .ok f → f 0 = (off, off)

/-- An image that is the reference measures zero, whatever the padding. -/
def C153_AnyPad : Prop := ∀ cent off, Finds off cent → ∀ (n p : ℕ) (ref : ℕ → ℕ → ℝ), n % 2 = 0 → n ≤ p → PointSym n ref → Distinct n ref → (∀ i < n, ref 0 i = 0 ∧ ref i 0 = 0) → ∀ f, slopesOf cent 1 n (some p) (fun _ => (0, 0)) (fun _ => ref) (fun _ => 0) ref = .ok f → f 0 = (off, off)

theorem point_distinct (n a b : ℕ) (ha : a < n) (hb : b < n) : Distinct n (point a b) := by
  intro s hs t ht h
  have := h a ha b hb
  have e : point a b a b = 1 := by simp [point]
  rw [e, point] at this
  have h2 : (a + s) % n = a ∧ (b + t) % n = b := by
    by_contra hc
    rw [if_neg hc] at this
    norm_num at this
  have key : ∀ a s, a < n → s < n → (a + s) % n = a → s = 0 := by
    intro a s ha hs h
    by_cases hl : a + s < n
    · rw [Nat.mod_eq_of_lt hl] at h; omega
    · rw [Nat.mod_eq_sub_mod (by omega), Nat.mod_eq_of_lt (by omega)] at h; omega
  exact ⟨key a s ha hs h2.1, key b t hb ht h2.2⟩

theorem lowest_point (n a b : ℕ) (hn : 2 ≤ n) : lowest n (point a b) = 0 := by
  refine le_antisymm ?_ ((lowest_iff n (by omega) _ _).mpr fun i _ j _ => by unfold point; split_ifs <;> norm_num)
  by_cases h : a = 0
  · have := lowest_le n (point a b) 1 0 (by omega) (by omega)
    rwa [point, if_neg (by omega)] at this
  · have := lowest_le n (point a b) 0 0 (by omega) (by omega)
    rwa [point, if_neg (by omega)] at this

theorem point_centred4 : PointSym 4 (point 2 2) := by
  intro i hi j hj
  interval_cases i <;> interval_cases j <;> simp [point]

/-- Two sub-apertures of 4 × 4 pixels, one below the other; the spot of the first is one pixel off. -/
def twoSpots (x y : ℕ) : ℝ := if (x = 3 ∨ x = 6) ∧ y = 2 then 1 else 0

theorem twoSpots_img : ∀ k < 2, ∀ i < 4, ∀ j < 4, pieces (fun k => (4 * k, 0)) twoSpots k i j = 1 * displaced 4 (if k = 0 then 1 else 0) 0 (point 2 2) i j + 0 := by
  intro k hk i hi j hj
  interval_cases k <;> interval_cases i <;> interval_cases j <;> norm_num [pieces, twoSpots, displaced, point] <;> decide

/-- The hypotheses of `C153_measure_partial` can be met: the first sub-aperture measures zero, the second what the first should. -/
theorem C153_two (cent : ℕ → (ℕ → ℕ → ℝ) → ℝ × ℝ) (off : ℝ) (hcent : Finds off cent) :
    ∃ f, slopesOf cent 2 4 none (fun k => (4 * k, 0)) (fun _ => point 2 2) (fun _ => 0) twoSpots = .ok f ∧ f 0 = (off, off) ∧ f 1 = (1 + off, off) := by
  obtain ⟨f, hf, h⟩ := C153_measure_partial cent off hcent 2 4 (fun k => (4 * k, 0)) (fun _ => point 2 2) (fun _ => 0) twoSpots (fun _ _ => ⟨point_centred4, point_distinct 4 2 2 (by norm_num) (by norm_num)⟩)
    (fun k => if k = 0 then 1 else 0) (fun _ => 0) (by intro k hk; interval_cases k <;> norm_num) (by intro k hk; norm_num) (fun _ => 1) (fun _ => 0) (fun _ _ => one_pos) twoSpots_img
  refine ⟨f, hf, ?_, ?_⟩
  · rw [h 0 (by norm_num)]; norm_num
  · rw [h 1 (by norm_num)]; norm_num

/-- **C153, violated.** The first of two sub-apertures measures the displacement of the second; an image that is the reference is measured two pixels off if the reference is a spot one pixel off the first row; and one pixel off with a padding of one pixel. -/
theorem C153_violated : ¬ C153_Own ∧ ¬ C153_Any ∧ ¬ C153_AnyPad := by
  obtain ⟨cent, hcent⟩ := Finds.exists 0
  refine ⟨fun h => ?_, fun h => ?_, fun h => ?_⟩
  · obtain ⟨f, hf, h0, _⟩ := C153_two cent 0 hcent
    have := h cent 0 hcent 2 4 (fun k => (4 * k, 0)) (fun _ => point 2 2) twoSpots (fun k => if k = 0 then 1 else 0) (fun _ => 0) rfl (fun _ _ => ⟨point_centred4, point_distinct 4 2 2 (by norm_num) (by norm_num)⟩)
      (by intro k hk; interval_cases k <;> norm_num) (by intro k hk; norm_num) (fun k hk i hi j hj => by rw [twoSpots_img k hk i hi j hj, one_mul, add_zero]) f hf 0 (by norm_num)
    rw [h0] at this
    norm_num at this
  · have hb : Brightest (4 + 2 * 0) (corrImgs 1 4 0 (pieces (fun _ => (0, 0)) (point 1 0)) (fun _ => point 1 0) 0) 0 2 := by
      have hp : pieces (fun _ => (0, 0)) (point 1 0) = fun _ => point 1 0 := by funext k i j; simp [pieces]
      have e : ∀ i < 4, ∀ j < 4, corrImgs 1 4 0 (pieces (fun _ => (0, 0)) (point 1 0)) (fun _ => point 1 0) 0 i j = point 1 0 (cyc 4 (npShift 4 i) 1) (cyc 4 (npShift 4 j) 0) := by
        intro i hi j hj
        rw [hp, C153_exact 1 4 0 _ _ 0 i j hi hj]
        simp only [Nat.mul_zero, Nat.add_zero]
        rw [← cyclic_point 4 4 (point 1 0) 1 0 _ _ (by norm_num) (by norm_num) (shift_perm 4 i hi) (shift_perm 4 j hj)]
        refine cyclic_congr 4 4 _ _ _ _ (fun i hi j hj => ?_) (fun i hi j hj => padded_zero 4 _ i j hi hj) _ _ (shift_perm 4 i hi) (shift_perm 4 j hj)
        rw [padded_zero 4 _ i j hi hj, removeMin, lowest_point 4 1 0 (by norm_num), sub_zero]
      refine ⟨by norm_num, by norm_num, fun i hi j hj hne => ?_⟩
      rw [e i hi j hj, e 0 (by norm_num) 2 (by norm_num)]
      have hi4 : i < 4 := hi
      have hj4 : j < 4 := hj
      interval_cases i <;> interval_cases j <;> first | exact absurd rfl hne | norm_num [point, cyc, npShift]
    have := h cent 0 hcent 4 (point 1 0) rfl (point_distinct 4 1 0 (by norm_num) (by norm_num)) _ rfl
    rw [hcent _ _ _ _ hb] at this
    norm_num at this
  · have hpad : padded 1 2 (point 1 1) = point 2 2 := by
      funext i j
      unfold padded point
      split_ifs <;> first | rfl | omega
    obtain ⟨f, hf, h0⟩ := C153_padded cent 0 hcent 2 4 1 (by norm_num) rfl (by decide +kernel) (fun _ => (0, 0)) (point 1 1) (fun _ => 0) (point 1 1) (by intro i hi j hj; interval_cases i <;> interval_cases j <;> simp [point])
      (by intro i hi; simp [point]) (by rw [hpad]; exact point_distinct 4 2 2 (by norm_num) (by norm_num)) 0 0 (by norm_num) (by norm_num)
      (by
        have : pieces (fun _ => (0, 0)) (point 1 1) 0 = point 1 1 := by funext i j; simp [pieces]
        rw [this]
        exact lowest_point 2 1 1 (by norm_num))
      (by
        have : pieces (fun _ => (0, 0)) (point 1 1) 0 = point 1 1 := by funext i j; simp [pieces]
        intro i hi j hj
        rw [this, displaced_cyc _ 0 0 _ i j hi hj]
        simp [cyc, Nat.mod_eq_of_lt hi, Nat.mod_eq_of_lt hj])
    have := h cent 0 hcent 2 4 (point 1 1) rfl (by norm_num) (by intro i hi j hj; interval_cases i <;> interval_cases j <;> simp [point]) (point_distinct 2 1 1 (by norm_num) (by norm_num)) (by intro i hi; simp [point]) f hf
    rw [h0] at this
    norm_num at this

/-- With one sub-aperture and a centred spot as reference a spot one pixel off in the second direction measures one pixel, whatever the background. -/
example (cent : ℕ → (ℕ → ℕ → ℝ) → ℝ × ℝ) (off : ℝ) (hcent : Finds off cent) (b : ℝ) : ∃ f, slopesOf cent 1 4 none (fun _ => (0, 0)) (fun _ => point 2 2) (fun _ => 0) (fun x y => 3 * point 2 3 x y + b) = .ok f ∧ f 0 = (off, 1 + off) := by
  obtain ⟨f, hf, h⟩ := C153_measure_partial cent off hcent 1 4 (fun _ => (0, 0)) (fun _ => point 2 2) (fun _ => 0) (fun x y => 3 * point 2 3 x y + b) (fun _ _ => ⟨point_centred4, point_distinct 4 2 2 (by norm_num) (by norm_num)⟩)
    (fun _ => 0) (fun _ => 1) (by intro k hk; norm_num) (by intro k hk; norm_num) (fun _ => 3) (fun _ => b) (fun _ _ => by norm_num)
    (by
      intro k hk i hi j hj
      interval_cases i <;> interval_cases j <;> norm_num [pieces, displaced, point] <;> decide)
  refine ⟨f, hf, ?_⟩
  rw [h 0 (by norm_num)]
  norm_num

end Soapy.Props
