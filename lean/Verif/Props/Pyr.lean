/-
Property theorems C116 (flat wavefronts and pistons), C117 (the faces and the detector mask) and C118 (mirrored and turned wavefronts) of the pyramid sensor.
-/
import Verif.Model.Pyr
import Verif.Model.Sensors
import Verif.Lemmas.Parseval
import Mathlib.Algebra.BigOperators.Field
import Mathlib.Tactic.FieldSimp
import Mathlib.Tactic.Linarith
import Mathlib.Tactic.NormNum
import Mathlib.Tactic.LinearCombination

namespace Soapy.Props

open Soapy.Pyr Soapy.Psf Soapy.Spot Soapy.Lemmas Finset

/-! ### The phases -/

private theorem meanRamp_eq (n : ℕ) (hn : 0 < n) (v : ℝ) : meanRamp n v = v * (((n : ℝ) - 1) / 2) := by
  have h : ∀ n : ℕ, ∑ k ∈ range n, (k : ℝ) * v = v * ((n : ℝ) * (n - 1) / 2) := by
    intro n
    induction n with
    | zero => simp
    | succ k ih => rw [sum_range_succ, ih]; push_cast; ring
  have : (n : ℝ) ≠ 0 := by positivity
  rw [meanRamp, h]
  field_simp

private theorem tipTilt_eq (n : ℕ) (hn : 0 < n) (tip tilt : ℝ) (i j : ℕ) :
    tipTilt n tip tilt i j = tip * ((j : ℝ) - ((n : ℝ) - 1) / 2) - tilt * ((i : ℝ) - ((n : ℝ) - 1) / 2) := by
  have hn' : (n : ℝ) ≠ 0 := by positivity
  have h0 : (∑ k ∈ range n, ((k : ℝ) * tilt - meanRamp n tilt)) / n = 0 := by
    rw [sum_sub_distrib, sum_const, card_range, nsmul_eq_mul, sub_div, mul_div_cancel_left₀ _ hn', ← meanRamp, sub_self]
  unfold tipTilt
  simp only [h0]
  rw [meanRamp_eq n hn, meanRamp_eq n hn]
  ring

/-- The height of the pyramid along one axis: it falls and rises with the slope `a` on both sides of the middle. -/
noncomputable def roof (N : ℕ) (a : ℝ) (x : ℕ) : ℝ := a * (|(x : ℝ) - ((N : ℝ) - 1) / 2| - (N : ℝ) / 4)

private theorem roof_low (h : ℕ) (a : ℝ) (x : ℕ) (hx : x < h) : roof (2 * h) a x = -a * ((x : ℝ) - ((h : ℝ) - 1) / 2) := by
  have h1 : (x : ℝ) + 1 ≤ h := by exact_mod_cast hx
  unfold roof
  push_cast
  rw [abs_of_nonpos (by linarith)]
  ring

private theorem roof_high (h : ℕ) (a : ℝ) (x : ℕ) (hx : h ≤ x) : roof (2 * h) a x = a * (((x - h : ℕ) : ℝ) - ((h : ℝ) - 1) / 2) := by
  have h1 : (h : ℝ) ≤ x := by exact_mod_cast hx
  unfold roof
  rw [Nat.cast_sub hx]
  push_cast
  rw [abs_of_nonneg (by linarith)]
  ring

/-- **C117 (roof).** The four faces together are one roof along the rows plus the same roof along the columns, with its edge in the middle of the array. -/
theorem C117_roof (h : ℕ) (hh : 0 < h) (a : ℝ) (i j : ℕ) : pyramidMask (2 * h) a i j = roof (2 * h) a i + roof (2 * h) a j := by
  have e : 2 * h / 2 = h := by omega
  unfold pyramidMask
  simp only [e]
  by_cases hi : i < h <;> by_cases hj : j < h
  · rw [if_pos hi, if_pos hj, tipTilt_eq h hh, roof_low h a i hi, roof_low h a j hj]; ring
  · rw [if_pos hi, if_neg hj, tipTilt_eq h hh, roof_low h a i hi, roof_high h a j (by omega)]; ring
  · rw [if_neg hi, if_pos hj, tipTilt_eq h hh, roof_high h a i (by omega), roof_low h a j hj]; ring
  · rw [if_neg hi, if_neg hj, tipTilt_eq h hh, roof_high h a i (by omega), roof_high h a j (by omega)]; ring

private theorem roof_mirror (N : ℕ) (a : ℝ) (x : ℕ) (hx : x < N) : roof N a (N - 1 - x) = roof N a x := by
  unfold roof
  rw [show N - 1 - x = N - (1 + x) by omega, Nat.cast_sub (by omega)]
  push_cast
  rw [show (N : ℝ) - (1 + x) - (N - 1) / 2 = -((x : ℝ) - (N - 1) / 2) by ring, abs_neg]

private noncomputable def cen1 (N : ℕ) (j : ℕ) : ℝ := -(Real.pi / N) * ((j : ℝ) - ((N : ℝ) - 1) / 2)

private theorem centroidMask_eq (N : ℕ) (hN : 0 < N) (i j : ℕ) : centroidMask N i j = cen1 N i + cen1 N j := by
  rw [centroidMask, tipTilt_eq N hN, cen1, cen1]; ring

/-! ### One slot -/

/-- Where `fftshift` takes an index from. -/
private def sh (N u : ℕ) : ℕ := (u + (N - N / 2)) % N

/-- The field in the detector plane of one slot. -/
private noncomputable def amp (N : ℕ) (e : ℕ → ℕ → ℂ) (pyr : ℕ → ℕ → ℝ) (p q : ℕ) : ℂ := ifft2 N (fun u v => fft2 N e (sh N u) (sh N v) * cis (pyr u v)) p q

private theorem sum_rot (K : ℕ) (c : ℕ) (g : ℕ → ℝ) : ∑ s ∈ range K, g ((s + c) % K) = ∑ s ∈ range K, g s := by
  rcases Nat.eq_zero_or_pos K with rfl | hK
  · simp
  refine sum_nbij' (fun s => (s + c) % K) (fun s => (s + (K - c % K)) % K) ?_ ?_ ?_ ?_ ?_
  · intro s _; exact mem_range.mpr (Nat.mod_lt _ hK)
  · intro s _; exact mem_range.mpr (Nat.mod_lt _ hK)
  · intro s hs
    have hs' := mem_range.mp hs
    have hc := Nat.mod_lt c hK
    show ((s + c) % K + (K - c % K)) % K = s
    rw [Nat.mod_add_mod, show s + c + (K - c % K) = s + (c - c % K) + K by have := Nat.mod_le c K; omega, Nat.add_mod_right]
    rw [show c - c % K = K * (c / K) by have := Nat.mod_add_div c K; omega, Nat.add_mul_mod_self_left, Nat.mod_eq_of_lt hs']
  · intro s hs
    have hs' := mem_range.mp hs
    have hc := Nat.mod_lt c hK
    show ((s + (K - c % K)) % K + c) % K = s
    rw [Nat.mod_add_mod, show s + (K - c % K) + c = s + (c - c % K) + K by have := Nat.mod_le c K; omega, Nat.add_mod_right]
    rw [show c - c % K = K * (c / K) by have := Nat.mod_add_div c K; omega, Nat.add_mul_mod_self_left, Nat.mod_eq_of_lt hs']
  · intro s _; rfl

private theorem pyrImage_eq (K N : ℕ) (sl : ℕ → ℕ → ℕ → ℂ) (pyr : ℕ → ℕ → ℝ) (p q : ℕ) : pyrImage K N sl pyr p q = ∑ s ∈ range K, Complex.normSq (amp N (sl s) pyr p q) :=
  sum_rot K (K - K / 2) fun s => Complex.normSq (amp N (sl s) pyr p q)

private theorem amp_congr (N : ℕ) (e e' : ℕ → ℕ → ℂ) (z : ℂ) (h : ∀ j k, j < N → k < N → e' j k = z * e j k) (pyr : ℕ → ℕ → ℝ) (p q : ℕ) : amp N e' pyr p q = z * amp N e pyr p q := by
  have hf : ∀ u v, fft2 N e' u v = z * fft2 N e u v := by
    intro u v
    unfold fft2
    rw [mul_sum]
    refine sum_congr rfl fun j hj => ?_
    rw [mul_sum]
    refine sum_congr rfl fun k hk => ?_
    rw [h j k (mem_range.mp hj) (mem_range.mp hk), mul_assoc]
  unfold amp ifft2
  rw [mul_div_assoc', mul_sum]
  congr 1
  refine sum_congr rfl fun j _ => ?_
  rw [mul_sum]
  refine sum_congr rfl fun k _ => ?_
  simp only [hf]; ring

/-! ### C116: flat wavefronts and pistons -/

/-- A mask that lets light through or not. -/
def Binary (N : ℕ) (m : ℕ → ℕ → ℝ) : Prop := ∀ j k, j < N → k < N → m j k = 0 ∨ m j k = 1

private theorem framePlane_piston (N b nb : ℕ) (hnb : 32 ≤ nb) (P : ℕ) (hP : N = P * b) (A a : ℝ) (m phi phi' : ℕ → ℕ → ℝ) (hm : Binary N m) (c : ℝ)
    (hphi : ∀ j k, j < N → k < N → m j k ≠ 0 → phi' j k = phi j k + c) (stale stale' : ℕ → ℕ → ℕ → ℂ) (p q : ℕ) :
    pyrImage (max 32 nb) N (slots N nb A m phi' stale') (pyramidMask N a) p q = pyrImage (max 32 nb) N (slots N nb A m phi stale) (pyramidMask N a) p q := by
  rw [max_eq_right hnb, pyrImage_eq, pyrImage_eq]
  refine sum_congr rfl fun s hs => ?_
  have hs' := mem_range.mp hs
  rw [amp_congr N (slots N nb A m phi stale s) (slots N nb A m phi' stale' s) (cis c), Complex.normSq_mul, cis_normSq', one_mul]
  intro j k hj hk
  simp only [slots, if_pos hs', pyrField]
  rcases hm j k hj hk with h | h
  · simp [h]
  · rw [hphi j k hj hk (by rw [h]; norm_num), h]
    push_cast
    rw [one_mul, one_mul, ← cis_add']
    congr 1; ring

/-- **C116 (piston).** A piston does not change the image, whatever the wavefront and whatever the FFT buffers held before: any two wavefronts that differ by a constant where there is light give the same image.  The mask must be
zero or one and at least 32 modulation points must be used. -/
theorem C116_piston_partial (P b nb : ℕ) (hnb : 32 ≤ nb) (A a : ℝ) (m phi phi' : ℕ → ℕ → ℝ) (hm : Binary (P * b) m) (c : ℝ)
    (hphi : ∀ j k, j < P * b → k < P * b → m j k ≠ 0 → phi' j k = phi j k + c) (stale stale' : ℕ → ℕ → ℕ → ℂ) (noise : ℕ → ℕ → ℝ) :
    framePlane (P * b) b nb A a m phi' stale' noise = framePlane (P * b) b nb A a m phi stale noise := by
  funext i j
  unfold framePlane pyrPlane
  have : pyrImage (max 32 nb) (P * b) (slots (P * b) nb A m phi' stale') (pyramidMask (P * b) a) = pyrImage (max 32 nb) (P * b) (slots (P * b) nb A m phi stale) (pyramidMask (P * b) a) := by
    funext p q; exact framePlane_piston _ b nb hnb P rfl A a m phi phi' hm c hphi stale stale' p q
  rw [this]

private theorem part_scale (M : Mask) (det : ℕ → ℕ → ℝ) (k : ℝ) (hk : 0 < k) (r c x y : ℕ) : part M (fun i j => det i j / k) r c x y = part M det r c x y / k := by
  unfold part; rw [div_mul_eq_mul_div, abs_div, abs_of_pos hk]

private theorem slopes_scale (M : Mask) (det : ℕ → ℕ → ℝ) (k : ℝ) (hk : 0 < k) (x y : ℕ) :
    slopeX M (fun i j => det i j / k) x y = slopeX M det x y ∧ slopeY M (fun i j => det i j / k) x y = slopeY M det x y := by
  have hs : sumInt M (fun i j => det i j / k) = sumInt M det / k := by
    unfold sumInt
    simp only [part_scale M det k hk, ← add_div, ← sum_div]
  unfold slopeX slopeY
  simp only [hs, part_scale M det k hk, ← add_div, ← sub_div]
  exact ⟨div_div_div_cancel_right₀ hk.ne' _ _, div_div_div_cancel_right₀ hk.ne' _ _⟩

/-- **C116 (flat).** A flat wavefront, of whatever height, is measured as zero everywhere, in every frame: the reference made at initialisation takes away exactly what a flat wavefront shows.  The mask must be that of the
initialisation, zero or one; at least 32 modulation points and no read noise. -/
theorem C116_flat_partial (P b nb : ℕ) (hnb : 32 ≤ nb) (A a : ℝ) (m phi : ℕ → ℕ → ℝ) (hm : Binary (P * b) m) (c : ℝ) (hphi : ∀ j k, j < P * b → k < P * b → m j k ≠ 0 → phi j k = c)
    (stale stale' : ℕ → ℕ → ℕ → ℂ) (M : Mask) (x y : ℕ) :
    measured M (flatPlane (P * b) b nb A a m stale fun _ _ => 0) (framePlane (P * b) b nb A a m phi stale' fun _ _ => 0) x y = (0, 0) := by
  have h : framePlane (P * b) b nb A a m phi stale' (fun _ _ => 0) = fun i j => flatPlane (P * b) b nb A a m stale (fun _ _ => 0) i j / nb := by
    funext i j
    have : pyrImage (max 32 nb) (P * b) (slots (P * b) nb A m phi stale') (pyramidMask (P * b) a) = pyrImage (max 32 nb) (P * b) (slots (P * b) nb A m m stale) (pyramidMask (P * b) a) := by
      funext p q
      refine framePlane_piston _ b nb hnb P rfl A a m m phi hm (c - 1) ?_ stale stale' p q
      intro j k hj hk hmk
      rcases hm j k hj hk with h0 | h1
      · exact absurd h0 hmk
      · rw [hphi j k hj hk hmk, h1]; ring
    unfold framePlane flatPlane pyrPlane
    rw [this, add_zero, add_zero]
  rw [h, measured]
  have hk : (0 : ℝ) < nb := by positivity
  rw [(slopes_scale M _ (nb : ℝ) hk x y).1, (slopes_scale M _ (nb : ℝ) hk x y).2, sub_self, sub_self]

/-! ### C117: the faces and the detector mask -/

private theorem sum_face (N : ℕ) (hN : 0 < N) (j p : ℕ) (d : ℤ) :
    ∑ u ∈ range N, cis (-(2 * Real.pi * ((sh N u : ℝ) * j) / N)) * cis (2 * Real.pi * ((d : ℝ) * u) / N) * cis (2 * Real.pi * ((p : ℝ) * u) / N) =
      if ((p : ℤ) + d - j) % N = 0 then N * cis (-(2 * Real.pi * (((N - N / 2 : ℕ) : ℝ) * j) / N)) else 0 := by
  have hN' : (N : ℝ) ≠ 0 := by positivity
  have term : ∀ u ∈ range N, cis (-(2 * Real.pi * ((sh N u : ℝ) * j) / N)) * cis (2 * Real.pi * ((d : ℝ) * u) / N) * cis (2 * Real.pi * ((p : ℝ) * u) / N) =
      cis (-(2 * Real.pi * (((N - N / 2 : ℕ) : ℝ) * j) / N)) * cis (u * (2 * Real.pi * ((p : ℤ) + d - j : ℤ) / N)) := by
    intro u _
    obtain ⟨c, hc⟩ : ∃ c : ℕ, u + (N - N / 2) = sh N u + N * c := ⟨(u + (N - N / 2)) / N, (Nat.mod_add_div _ _).symm⟩
    have hc' : (sh N u : ℝ) = u + ((N - N / 2 : ℕ) : ℝ) - N * c := by
      have : ((u + (N - N / 2) : ℕ) : ℝ) = ((sh N u + N * c : ℕ) : ℝ) := by rw [hc]
      push_cast at this ⊢
      linarith
    rw [hc', ← cis_add', ← cis_add', ← cis_add']
    rw [show -(2 * Real.pi * (((u : ℝ) + ((N - N / 2 : ℕ) : ℝ) - N * c) * j) / N) + 2 * Real.pi * ((d : ℝ) * u) / N + 2 * Real.pi * ((p : ℝ) * u) / N =
      (-(2 * Real.pi * (((N - N / 2 : ℕ) : ℝ) * j) / N) + u * (2 * Real.pi * ((p : ℤ) + d - j : ℤ) / N)) + 2 * Real.pi * ((c * j : ℕ) : ℤ) by push_cast; field_simp; ring]
    rw [cis_add' _ (2 * Real.pi * ((c * j : ℕ) : ℤ)), cis_int', mul_one]
  rw [sum_congr rfl term, ← mul_sum]
  by_cases h : ((p : ℤ) + d - j) % N = 0
  · rw [if_pos h]
    obtain ⟨c, hc⟩ := Int.dvd_of_emod_eq_zero h
    have one : ∀ u ∈ range N, cis (u * (2 * Real.pi * ((p : ℤ) + d - j : ℤ) / N)) = 1 := by
      intro u _
      rw [hc, show (u : ℝ) * (2 * Real.pi * (((N : ℤ) * c : ℤ) : ℝ) / N) = 2 * Real.pi * ((u * c : ℤ) : ℝ) by push_cast; field_simp]
      exact cis_int' _
    rw [sum_congr rfl one]
    simp [mul_comm]
  · rw [if_neg h, orth N hN _ (fun hd => h (Int.emod_eq_zero_of_dvd hd)), mul_zero]

private theorem amp_face (N : ℕ) (hN : 0 < N) (f : ℕ → ℕ → ℂ) (pyr : ℕ → ℕ → ℝ) (al : ℝ) (d e : ℤ) (hp : ∀ u v, u < N → v < N → pyr u v = al + (2 * Real.pi * ((d : ℝ) * u) / N + 2 * Real.pi * ((e : ℝ) * v) / N))
    (p q j k : ℕ) (hj : j < N) (hk : k < N) (hpj : ((p : ℤ) + d - j) % N = 0) (hqk : ((q : ℤ) + e - k) % N = 0) :
    Complex.normSq (amp N f pyr p q) = Complex.normSq (f j k) := by
  have hN' : (N : ℂ) ≠ 0 := by exact_mod_cast hN.ne'
  have uniq : ∀ (p j j' : ℕ) (d : ℤ), j < N → j' < N → ((p : ℤ) + d - j) % N = 0 → ((p : ℤ) + d - j') % N = 0 → j' = j := by
    intro p j j' d h1 h2 h3 h4
    have h5 : (N : ℤ) ∣ ((p : ℤ) + d - j') - ((p : ℤ) + d - j) := dvd_sub (Int.dvd_of_emod_eq_zero h4) (Int.dvd_of_emod_eq_zero h3)
    obtain ⟨c, hc⟩ := h5
    have : c = 0 := by
      by_contra hne
      rcases lt_or_gt_of_ne hne with hlt | hgt
      · nlinarith
      · nlinarith
    rw [this] at hc
    omega
  have key : amp N f pyr p q = cis al * (∑ j ∈ range N, ∑ k ∈ range N, f j k *
      ((∑ u ∈ range N, cis (-(2 * Real.pi * ((sh N u : ℝ) * j) / N)) * cis (2 * Real.pi * ((d : ℝ) * u) / N) * cis (2 * Real.pi * ((p : ℝ) * u) / N)) *
       (∑ v ∈ range N, cis (-(2 * Real.pi * ((sh N v : ℝ) * k) / N)) * cis (2 * Real.pi * ((e : ℝ) * v) / N) * cis (2 * Real.pi * ((q : ℝ) * v) / N)))) / (N : ℂ) ^ 2 := by
    unfold amp ifft2 fft2
    congr 1
    rw [mul_sum]
    simp only [sum_mul, mul_sum]
    rw [sum_congr rfl fun u hu => sum_comm]
    rw [sum_comm]
    refine sum_congr rfl fun j _ => ?_
    rw [sum_congr rfl fun u hu => sum_comm]
    rw [sum_comm]
    refine sum_congr rfl fun k _ => ?_
    rw [sum_comm]
    refine sum_congr rfl fun v hv => sum_congr rfl fun u hu => ?_
    rw [hp u v (mem_range.mp hu) (mem_range.mp hv), cis_add', cis_add']
    rw [show -(2 * Real.pi * ((sh N u : ℝ) * j + (sh N v : ℝ) * k) / N) = -(2 * Real.pi * ((sh N u : ℝ) * j) / N) + -(2 * Real.pi * ((sh N v : ℝ) * k) / N) by ring, cis_add',
      show 2 * Real.pi * ((p : ℝ) * u + (q : ℝ) * v) / N = 2 * Real.pi * ((p : ℝ) * u) / N + 2 * Real.pi * ((q : ℝ) * v) / N by ring, cis_add']
    ring
  rw [key]
  have s1 : ∑ j' ∈ range N, ∑ k' ∈ range N, f j' k' *
      ((∑ u ∈ range N, cis (-(2 * Real.pi * ((sh N u : ℝ) * j') / N)) * cis (2 * Real.pi * ((d : ℝ) * u) / N) * cis (2 * Real.pi * ((p : ℝ) * u) / N)) *
       (∑ v ∈ range N, cis (-(2 * Real.pi * ((sh N v : ℝ) * k') / N)) * cis (2 * Real.pi * ((e : ℝ) * v) / N) * cis (2 * Real.pi * ((q : ℝ) * v) / N))) =
      f j k * ((N * cis (-(2 * Real.pi * (((N - N / 2 : ℕ) : ℝ) * j) / N))) * (N * cis (-(2 * Real.pi * (((N - N / 2 : ℕ) : ℝ) * k) / N)))) := by
    rw [sum_eq_single j, sum_eq_single k]
    · rw [sum_face N hN, sum_face N hN, if_pos hpj, if_pos hqk]
    · intro k' hk' hne
      rw [sum_face N hN k' q e, if_neg (fun h => hne (uniq q k k' e hk (mem_range.mp hk') hqk h)), mul_zero, mul_zero]
    · intro h; exact absurd (mem_range.mpr hk) h
    · intro j' hj' hne
      refine sum_eq_zero fun k' _ => ?_
      rw [sum_face N hN j' p d, if_neg (fun h => hne (uniq p j j' d hj (mem_range.mp hj') hpj h)), zero_mul, mul_zero]
    · intro h; exact absurd (mem_range.mpr hj) h
  rw [s1]
  rw [show cis al * (f j k * ((N : ℂ) * cis (-(2 * Real.pi * (((N - N / 2 : ℕ) : ℝ) * j) / N)) * ((N : ℂ) * cis (-(2 * Real.pi * (((N - N / 2 : ℕ) : ℝ) * k) / N))))) / (N : ℂ) ^ 2 =
    f j k * (cis al * cis (-(2 * Real.pi * (((N - N / 2 : ℕ) : ℝ) * j) / N)) * cis (-(2 * Real.pi * (((N - N / 2 : ℕ) : ℝ) * k) / N))) by field_simp]
  simp only [Complex.normSq_mul, cis_normSq', mul_one]

/-- The face of the pyramid through which the light reaches the quadrant `r` of the detector along one axis: the lower half of the focal plane sends the light to the upper half of the detector and the other way round. -/
def facing (h r u : ℕ) : Prop := if r = 0 then h ≤ u ∧ u < 2 * h else u < h

/-- The way the light is shifted towards quadrant `r`. -/
def towards (r : ℕ) : ℤ := if r = 0 then 1 else -1

/-- **C117 (faces).** If the apex angle is `2π d / N`, the phase of the face facing quadrant `(r, c)` is that of a shift by `d` elements towards this quadrant along rows and columns. -/
theorem C117_faces (h : ℕ) (hh : 0 < h) (d r c : ℕ) :
    ∃ al : ℝ, ∀ u v, facing h r u → facing h c v → pyramidMask (2 * h) (2 * Real.pi * d / (2 * h : ℕ)) u v =
      al + (2 * Real.pi * (((towards r * d : ℤ) : ℝ) * u) / (2 * h : ℕ) + 2 * Real.pi * (((towards c * d : ℤ) : ℝ) * v) / (2 * h : ℕ)) := by
  have one : ∀ r, ∃ al : ℝ, ∀ u, facing h r u → roof (2 * h) (2 * Real.pi * d / (2 * h : ℕ)) u = al + 2 * Real.pi * (((towards r * d : ℤ) : ℝ) * u) / (2 * h : ℕ) := by
    intro r
    by_cases hr : r = 0
    · refine ⟨-(2 * Real.pi * d / (2 * h : ℕ)) * (h + ((h : ℝ) - 1) / 2), fun u hu => ?_⟩
      simp only [facing, if_pos hr] at hu
      rw [roof_high h _ u hu.1, Nat.cast_sub hu.1, towards, if_pos hr]
      push_cast; ring
    · refine ⟨2 * Real.pi * d / (2 * h : ℕ) * (((h : ℝ) - 1) / 2), fun u hu => ?_⟩
      simp only [facing, if_neg hr] at hu
      rw [roof_low h _ u hu, towards, if_neg hr]
      push_cast; ring
  obtain ⟨a1, h1⟩ := one r
  obtain ⟨a2, h2⟩ := one c
  refine ⟨a1 + a2, fun u v hu hv => ?_⟩
  rw [C117_roof h hh, h1 u hu, h2 v hv]; ring

/-- **C117 (apex).** The apex angle is that of a shift by half the sum of the pupil and the separation: with `bin` elements to a detector pixel, `nx` pixels across the pupil and the separation `sep`, `2 d = bin (nx + sep)`. -/
theorem C117_apex (nx bin N d : ℕ) (hnx : 0 < nx) (sep : ℝ) (hd : (2 * d : ℝ) = bin * (nx + sep)) : apex (nx * bin) nx N sep = 2 * Real.pi * d / N := by
  have : (nx : ℝ) ≠ 0 := by positivity
  unfold apex
  push_cast
  rw [show 2 * Real.pi * (d : ℝ) / N = Real.pi * (2 * d) / N by ring, hd]
  field_simp
  rw [add_comm]

/-- **C117 (image).** Light sent through the face facing quadrant `(r, c)`, if that face covered the focal plane, arrives exactly on the pixels the detector mask has there: pixel `(x, y)` of the pupil image of each quadrant shows
the mean over the `bin × bin` elements `(x, y)` of the pupil.  The separation must be even (`2 t`), the pupil a whole number of pixels in the middle of the array. -/
theorem C117_image_partial (half nx bin t d o : ℕ) (hb : 0 < bin) (hfit : nx + t ≤ half) (hd : 2 * d = bin * (nx + 2 * t)) (ho : 2 * o + nx * bin = 2 * (half * bin)) (f : ℕ → ℕ → ℂ) (pyr : ℕ → ℕ → ℝ) (al : ℝ) (r c : ℕ)
    (hr : r < 2) (hc : c < 2)
    (hp : ∀ u v, u < 2 * (half * bin) → v < 2 * (half * bin) → pyr u v = al + (2 * Real.pi * (((towards r * d : ℤ) : ℝ) * u) / (2 * (half * bin) : ℕ) + 2 * Real.pi * (((towards c * d : ℤ) : ℝ) * v) / (2 * (half * bin) : ℕ)))
    (x y : ℕ) (hx : x < nx) (hy : y < nx) :
    rebin bin (pyrImage 1 (2 * (half * bin)) (fun _ => f) pyr) (pupilAt (half - nx - t) nx t r + x) (pupilAt (half - nx - t) nx t c + y) =
      (∑ w ∈ range bin, ∑ w' ∈ range bin, Complex.normSq (f (o + x * bin + w) (o + y * bin + w'))) / (bin : ℝ) ^ 2 := by
  have hN : 0 < 2 * (half * bin) := by have : 0 < half * bin := Nat.mul_pos (by omega) hb; omega
  have at_ : ∀ r x w, r < 2 → x < nx → w < bin → ((w + (pupilAt (half - nx - t) nx t r + x) * bin : ℕ) : ℤ) + towards r * d = (o + x * bin + w : ℕ) ∧ o + x * bin + w < 2 * (half * bin) := by
    intro r x w hr hx hw
    have e1 : ((half - nx - t : ℕ) : ℤ) = half - nx - t := by omega
    have hd' : (2 : ℤ) * d = bin * (nx + 2 * t) := by exact_mod_cast hd
    have ho' : (2 : ℤ) * o + nx * bin = 2 * (half * bin) := by exact_mod_cast ho
    refine ⟨?_, ?_⟩
    · by_cases h0 : r = 0
      · simp only [pupilAt, towards, if_pos h0]
        push_cast
        rw [e1]
        linarith
      · simp only [pupilAt, towards, if_neg h0]
        push_cast
        rw [e1]
        linarith
    · have : (x + 1) * bin ≤ nx * bin := Nat.mul_le_mul_right _ hx
      have : x * bin + bin ≤ nx * bin := by linarith [Nat.add_mul x 1 bin]
      omega
  unfold rebin binned
  congr 1
  refine sum_congr rfl fun w hw => sum_congr rfl fun w' hw' => ?_
  obtain ⟨p1, p2⟩ := at_ r x w hr hx (mem_range.mp hw)
  obtain ⟨q1, q2⟩ := at_ c y w' hc hy (mem_range.mp hw')
  rw [pyrImage_eq, sum_range_one]
  refine amp_face _ hN f pyr al (towards r * d) (towards c * d) hp _ _ _ _ p2 q2 ?_ ?_
  · rw [p1, sub_self, Int.zero_emod]
  · rw [q1, sub_self, Int.zero_emod]

/-- **C117 (mask).** The detector mask has its pixels there (`pupilAt`): for the separation `2 t`, and also for `2 t + 1`, the pupil image of the first quadrant is from pixel `half - nx - t` to pixel `half - t`. -/
theorem C117_mask (half nx t : ℕ) (hfit : nx + t ≤ half) :
    Sensors.pupilRange half nx (2 * t) = (((half - nx - t : ℕ) : ℤ), ((half - t : ℕ) : ℤ)) ∧ Sensors.pupilRange half nx (2 * t + 1) = (((half - nx - t : ℕ) : ℤ), ((half - t : ℕ) : ℤ)) := by
  have floor : ∀ (n : ℕ) (x : ℚ), (n : ℚ) ≤ x → x < n + 1 → Soapy.pyInt x = n := by
    intro n x h1 h2
    have h0 : (0 : ℚ) ≤ n := Nat.cast_nonneg n
    unfold Soapy.pyInt
    rw [if_pos (by linarith)]
    exact Int.floor_eq_iff.mpr ⟨by exact_mod_cast h1, by exact_mod_cast h2⟩
  have e1 : ((half - nx - t : ℕ) : ℚ) = half - nx - t := by rw [Nat.sub_sub, Nat.cast_sub (by omega)]; push_cast; ring
  have e2 : ((half - t : ℕ) : ℚ) = half - t := by rw [Nat.cast_sub (by omega)]
  unfold Sensors.pupilRange
  refine ⟨Prod.ext ?_ ?_, Prod.ext ?_ ?_⟩ <;> apply floor <;> (first | rw [e1] | rw [e2]) <;> linarith

/-- **C117 (odd separation, violated).** With an odd separation the detector mask is the one of the next smaller even separation, but the faces send the light as far as the odd separation requires: seen along one axis, pixel `x`
of the pupil image begins, in elements of the pupil, half a pixel too far on one side and half a pixel too near on the other. -/
theorem C117_odd_violated (half nx bin t d o : ℕ) (hfit : nx + t < half) (hd : 2 * d = bin * (nx + (2 * t + 1))) (ho : 2 * o + nx * bin = 2 * (half * bin)) (x : ℕ) :
    2 * ((((pupilAt (half - nx - t) nx t 0 + x) * bin : ℕ) : ℤ) + towards 0 * d) = 2 * (o + x * bin : ℕ) + bin ∧
      2 * ((((pupilAt (half - nx - t) nx t 1 + x) * bin : ℕ) : ℤ) + towards 1 * d) = 2 * (o + x * bin : ℕ) - bin := by
  have e1 : ((half - nx - t : ℕ) : ℤ) = half - nx - t := by omega
  have hd' : (2 : ℤ) * d = bin * (nx + (2 * t + 1)) := by exact_mod_cast hd
  have ho' : (2 : ℤ) * o + nx * bin = 2 * (half * bin) := by exact_mod_cast ho
  constructor
  · simp only [pupilAt, towards, if_pos]
    push_cast
    rw [e1]
    linarith
  · simp only [pupilAt, towards, if_neg one_ne_zero]
    push_cast
    rw [e1]
    linarith

/-! ### C118: mirrored and turned wavefronts -/

/-- What a point of the pupil contributes `x` elements away along one axis. -/
noncomputable def kern (N : ℕ) (a x : ℝ) : ℂ := ∑ u ∈ range N, cis (roof N a u + 2 * Real.pi * ((u : ℝ) - ((N : ℝ) - 1) / 2) * x / N)

private theorem kern_even (N : ℕ) (a x : ℝ) : kern N a (-x) = kern N a x := by
  unfold kern
  rw [← sum_range_reflect]
  refine sum_congr rfl fun u hu => ?_
  have hu' := mem_range.mp hu
  rw [roof_mirror N a u hu', show N - 1 - u = N - (1 + u) by omega, Nat.cast_sub (by omega)]
  push_cast
  congr 1; ring

private theorem sum_kern (h : ℕ) (hh : 0 < h) (a : ℝ) (j p : ℕ) :
    ∑ u ∈ range (2 * h), cis (-(2 * Real.pi * ((sh (2 * h) u : ℝ) * j) / (2 * h : ℕ))) * cis (roof (2 * h) a u) * cis (2 * Real.pi * ((p : ℝ) * u) / (2 * h : ℕ)) * cis (cen1 (2 * h) j) =
      cis (Real.pi * ((2 * h : ℕ) - 1) / (2 * (2 * h : ℕ)) + Real.pi * ((2 * h : ℕ) - 1) * p / (2 * h : ℕ)) * kern (2 * h) a ((p : ℝ) - j) := by
  have hN' : (h : ℝ) ≠ 0 := by positivity
  rw [kern, mul_sum]
  refine sum_congr rfl fun u hu => ?_
  have hu' := mem_range.mp hu
  have e2 : 2 * h / 2 = h := by omega
  obtain ⟨c, hc⟩ : ∃ c : ℕ, u + (2 * h - 2 * h / 2) = sh (2 * h) u + 2 * h * c := ⟨(u + (2 * h - 2 * h / 2)) / (2 * h), (Nat.mod_add_div _ _).symm⟩
  have hc' : (sh (2 * h) u : ℝ) = u + h - 2 * h * c := by
    have h3 : u + h = sh (2 * h) u + 2 * h * c := by omega
    have : ((u + h : ℕ) : ℝ) = ((sh (2 * h) u + 2 * h * c : ℕ) : ℝ) := by rw [h3]
    push_cast at this
    linarith
  rw [hc', ← cis_add', ← cis_add', ← cis_add', ← cis_add']
  -- the two sides differ by whole turns
  have turn : -(2 * Real.pi * (((u : ℝ) + h - 2 * h * c) * j) / (2 * h : ℕ)) + roof (2 * h) a u + 2 * Real.pi * ((p : ℝ) * u) / (2 * h : ℕ) + cen1 (2 * h) j =
      (Real.pi * ((2 * h : ℕ) - 1) / (2 * (2 * h : ℕ)) + Real.pi * ((2 * h : ℕ) - 1) * p / (2 * h : ℕ) +
        (roof (2 * h) a u + 2 * Real.pi * ((u : ℝ) - (((2 * h : ℕ) : ℝ) - 1) / 2) * ((p : ℝ) - j) / (2 * h : ℕ))) + 2 * Real.pi * (((c : ℤ) * j - j : ℤ) : ℝ) := by
    unfold cen1
    push_cast
    field_simp
    ring
  rw [turn, cis_add' _ (2 * Real.pi * _), cis_int', mul_one]

/-- The field of a frame in the detector plane is the field in the pupil, spread by the same even function along rows and columns (up to a phase). -/
private theorem amp_kern (h : ℕ) (hh : 0 < h) (a : ℝ) (E e : ℕ → ℕ → ℂ) (he : ∀ j k, j < 2 * h → k < 2 * h → e j k = E j k * (cis (cen1 (2 * h) j) * cis (cen1 (2 * h) k))) (p q : ℕ) :
    Complex.normSq (amp (2 * h) e (pyramidMask (2 * h) a) p q) =
      Complex.normSq (∑ j ∈ range (2 * h), ∑ k ∈ range (2 * h), E j k * (kern (2 * h) a ((p : ℝ) - j) * kern (2 * h) a ((q : ℝ) - k))) / ((2 * h : ℕ) : ℝ) ^ 4 := by
  set g : ℕ → ℂ := fun p => cis (Real.pi * ((2 * h : ℕ) - 1) / (2 * (2 * h : ℕ)) + Real.pi * ((2 * h : ℕ) - 1) * p / (2 * h : ℕ)) with hg
  have key : amp (2 * h) e (pyramidMask (2 * h) a) p q =
      (g p * g q) * (∑ j ∈ range (2 * h), ∑ k ∈ range (2 * h), E j k * (kern (2 * h) a ((p : ℝ) - j) * kern (2 * h) a ((q : ℝ) - k))) / ((2 * h : ℕ) : ℂ) ^ 2 := by
    unfold amp ifft2 fft2
    congr 1
    have : (g p * g q) * (∑ j ∈ range (2 * h), ∑ k ∈ range (2 * h), E j k * (kern (2 * h) a ((p : ℝ) - j) * kern (2 * h) a ((q : ℝ) - k))) =
        ∑ j ∈ range (2 * h), ∑ k ∈ range (2 * h), E j k * ((g p * kern (2 * h) a ((p : ℝ) - j)) * (g q * kern (2 * h) a ((q : ℝ) - k))) := by
      rw [mul_sum]
      refine sum_congr rfl fun j _ => ?_
      rw [mul_sum]
      exact sum_congr rfl fun k _ => by ring
    rw [this]
    simp only [hg, ← sum_kern h hh a]
    simp only [sum_mul, mul_sum]
    rw [sum_congr rfl fun u hu => sum_comm]
    rw [sum_comm]
    refine sum_congr rfl fun j hj => ?_
    rw [sum_congr rfl fun u hu => sum_comm]
    rw [sum_comm]
    refine sum_congr rfl fun k hk => ?_
    rw [sum_comm]
    refine sum_congr rfl fun v hv => sum_congr rfl fun u hu => ?_
    rw [C117_roof h hh, he j k (mem_range.mp hj) (mem_range.mp hk), cis_add' (roof (2 * h) a u)]
    rw [show -(2 * Real.pi * ((sh (2 * h) u : ℝ) * j + (sh (2 * h) v : ℝ) * k) / (2 * h : ℕ)) = -(2 * Real.pi * ((sh (2 * h) u : ℝ) * j) / (2 * h : ℕ)) + -(2 * Real.pi * ((sh (2 * h) v : ℝ) * k) / (2 * h : ℕ)) by ring, cis_add',
      show 2 * Real.pi * ((p : ℝ) * u + (q : ℝ) * v) / (2 * h : ℕ) = 2 * Real.pi * ((p : ℝ) * u) / (2 * h : ℕ) + 2 * Real.pi * ((q : ℝ) * v) / (2 * h : ℕ) by ring, cis_add']
    ring
  rw [key, Complex.normSq_div, Complex.normSq_mul, Complex.normSq_mul, hg]
  simp only [cis_normSq', one_mul, map_pow, Complex.normSq_natCast]
  congr 1
  ring

/-- The field in the pupil at modulation point `s`, without the ramp that centres the image. -/
noncomputable def pupilField (N nb : ℕ) (A : ℝ) (m phi : ℕ → ℕ → ℝ) (s j k : ℕ) : ℂ := m j k * cis (phi j k + modulation N A nb s j k)

/-- **C118 (convolution).** The image before binning is, added up over the modulation points, the absolute square of the field in the pupil convolved along rows and columns with one and the same even function: the sensor treats
both axes and both directions alike. -/
theorem C118_convolution (h nb : ℕ) (hh : 0 < h) (hnb : 32 ≤ nb) (A a : ℝ) (m phi : ℕ → ℕ → ℝ) (hm : Binary (2 * h) m) (stale : ℕ → ℕ → ℕ → ℂ) (p q : ℕ) :
    (pyrImage (max 32 nb) (2 * h) (slots (2 * h) nb A m phi stale) (pyramidMask (2 * h) a) p q =
      ∑ s ∈ range nb, Complex.normSq (∑ j ∈ range (2 * h), ∑ k ∈ range (2 * h), pupilField (2 * h) nb A m phi s j k * (kern (2 * h) a ((p : ℝ) - j) * kern (2 * h) a ((q : ℝ) - k))) / ((2 * h : ℕ) : ℝ) ^ 4) ∧
    ∀ x, kern (2 * h) a (-x) = kern (2 * h) a x := by
  refine ⟨?_, kern_even _ a⟩
  rw [max_eq_right hnb, pyrImage_eq]
  refine sum_congr rfl fun s hs => ?_
  refine amp_kern h hh a _ _ ?_ p q
  intro j k hj hk
  simp only [slots, if_pos (mem_range.mp hs), pyrField, pupilField]
  rcases hm j k hj hk with h0 | h1
  · simp [h0]
  · rw [h1, ← cis_add', mul_one, mul_one, mul_assoc, ← cis_add', centroidMask_eq _ (by omega)]

/-- Spreading a field that was mirrored or turned gives the mirrored or turned result. -/
private theorem spread_rows (N : ℕ) (K : ℝ → ℂ) (hK : ∀ x, K (-x) = K x) (E E' : ℕ → ℕ → ℂ) (he : ∀ j k, j < N → k < N → E' j k = E (N - 1 - j) k) (p q : ℕ) (hp : p < N) :
    ∑ j ∈ range N, ∑ k ∈ range N, E' j k * (K ((p : ℝ) - j) * K ((q : ℝ) - k)) = ∑ j ∈ range N, ∑ k ∈ range N, E j k * (K (((N - 1 - p : ℕ) : ℝ) - j) * K ((q : ℝ) - k)) := by
  rw [← sum_range_reflect]
  refine sum_congr rfl fun j hj => sum_congr rfl fun k hk => ?_
  have hj' := mem_range.mp hj
  rw [he _ k (by omega) (mem_range.mp hk), show N - 1 - (N - 1 - j) = j by omega, ← hK (((N - 1 - p : ℕ) : ℝ) - j)]
  congr 3
  rw [show N - 1 - j = N - (1 + j) by omega, show N - 1 - p = N - (1 + p) by omega, Nat.cast_sub (by omega), Nat.cast_sub (by omega)]
  push_cast; ring

private theorem spread_turn (N : ℕ) (K : ℝ → ℂ) (E E' : ℕ → ℕ → ℂ) (he : ∀ j k, j < N → k < N → E' j k = E k j) (p q : ℕ) :
    ∑ j ∈ range N, ∑ k ∈ range N, E' j k * (K ((p : ℝ) - j) * K ((q : ℝ) - k)) = ∑ j ∈ range N, ∑ k ∈ range N, E j k * (K ((q : ℝ) - j) * K ((p : ℝ) - k)) := by
  rw [sum_comm]
  refine sum_congr rfl fun k hk => sum_congr rfl fun j hj => ?_
  rw [he j k (mem_range.mp hj) (mem_range.mp hk)]; ring

private theorem spread_cols (N : ℕ) (K : ℝ → ℂ) (hK : ∀ x, K (-x) = K x) (E E' : ℕ → ℕ → ℂ) (he : ∀ j k, j < N → k < N → E' j k = E j (N - 1 - k)) (p q : ℕ) (hq : q < N) :
    ∑ j ∈ range N, ∑ k ∈ range N, E' j k * (K ((p : ℝ) - j) * K ((q : ℝ) - k)) = ∑ j ∈ range N, ∑ k ∈ range N, E j k * (K ((p : ℝ) - j) * K (((N - 1 - q : ℕ) : ℝ) - k)) := by
  rw [spread_turn N K (fun j k => E' k j) E' (fun _ _ _ _ => rfl), spread_rows N K hK (fun j k => E k j) (fun j k => E' k j) (fun j k hj hk => he k j hk hj) q p hq,
    spread_turn N K E (fun j k => E k j) (fun _ _ _ _ => rfl)]

/-- A sum over the modulation points in another order. -/
private theorem sum_invol (n : ℕ) (σ : ℕ → ℕ) (h1 : ∀ s < n, σ s < n) (h2 : ∀ s < n, σ (σ s) = s) (f : ℕ → ℝ) : ∑ s ∈ range n, f (σ s) = ∑ s ∈ range n, f s :=
  sum_nbij' σ σ (fun s hs => mem_range.mpr (h1 s (mem_range.mp hs))) (fun s hs => mem_range.mpr (h1 s (mem_range.mp hs))) (fun s hs => h2 s (mem_range.mp hs)) (fun s hs => h2 s (mem_range.mp hs)) (fun _ _ => rfl)

private theorem point_rows (A : ℝ) (k s : ℕ) (hs : s < 4 * k) : modPoint A (4 * k) (if s ≤ 3 * k then 3 * k - s else 7 * k - s) = ((modPoint A (4 * k) s).1, -(modPoint A (4 * k) s).2) := by
  have hk : (k : ℝ) ≠ 0 := by have : 0 < k := by omega
                              positivity
  unfold modPoint
  by_cases h : s ≤ 3 * k
  · rw [if_pos h, Nat.cast_sub h]
    have e : 2 * Real.pi * (((3 * k : ℕ) : ℝ) - s) / (4 * k : ℕ) + Real.pi / 4 = 2 * Real.pi - (2 * Real.pi * s / (4 * k : ℕ) + Real.pi / 4) := by push_cast; field_simp; ring
    simp only [e, Real.cos_two_pi_sub, Real.sin_two_pi_sub, mul_neg, neg_neg, neg_mul]
  · rw [if_neg h, Nat.cast_sub (by omega)]
    have e : 2 * Real.pi * (((7 * k : ℕ) : ℝ) - s) / (4 * k : ℕ) + Real.pi / 4 = 2 * Real.pi - (2 * Real.pi * s / (4 * k : ℕ) + Real.pi / 4) + 2 * Real.pi := by push_cast; field_simp; ring
    simp only [e, Real.cos_add_two_pi, Real.sin_add_two_pi, Real.cos_two_pi_sub, Real.sin_two_pi_sub, mul_neg, neg_neg, neg_mul]

private theorem point_cols (A : ℝ) (k s : ℕ) (hs : s < 4 * k) : modPoint A (4 * k) (if s ≤ k then k - s else 5 * k - s) = (-(modPoint A (4 * k) s).1, (modPoint A (4 * k) s).2) := by
  have hk : (k : ℝ) ≠ 0 := by have : 0 < k := by omega
                              positivity
  unfold modPoint
  by_cases h : s ≤ k
  · rw [if_pos h, Nat.cast_sub h]
    have e : 2 * Real.pi * ((k : ℝ) - s) / (4 * k : ℕ) + Real.pi / 4 = Real.pi - (2 * Real.pi * s / (4 * k : ℕ) + Real.pi / 4) := by push_cast; field_simp; ring
    simp only [e, Real.cos_pi_sub, Real.sin_pi_sub, mul_neg]
  · rw [if_neg h, Nat.cast_sub (by omega)]
    have e : 2 * Real.pi * (((5 * k : ℕ) : ℝ) - s) / (4 * k : ℕ) + Real.pi / 4 = Real.pi - (2 * Real.pi * s / (4 * k : ℕ) + Real.pi / 4) + 2 * Real.pi := by push_cast; field_simp; ring
    simp only [e, Real.cos_add_two_pi, Real.sin_add_two_pi, Real.cos_pi_sub, Real.sin_pi_sub, mul_neg]

private theorem point_turn (A : ℝ) (n s : ℕ) (hs : s < n) : modPoint A n (if s = 0 then 0 else n - s) = (-(modPoint A n s).2, -(modPoint A n s).1) := by
  have hn : (n : ℝ) ≠ 0 := by have : 0 < n := by omega
                              positivity
  unfold modPoint
  by_cases h : s = 0
  · rw [if_pos h, h]
    have e : 2 * Real.pi * ((0 : ℕ) : ℝ) / n + Real.pi / 4 = Real.pi / 2 - (2 * Real.pi * ((0 : ℕ) : ℝ) / n + Real.pi / 4) := by push_cast; ring
    have c1 := congrArg Real.cos e
    have s1 := congrArg Real.sin e
    rw [Real.cos_pi_div_two_sub] at c1
    rw [Real.sin_pi_div_two_sub] at s1
    refine Prod.ext ?_ ?_
    · show A * Real.cos _ = -(-A * Real.sin _)
      rw [c1]; ring
    · show -A * Real.sin _ = -(A * Real.cos _)
      rw [s1]; ring
  · rw [if_neg h, Nat.cast_sub hs.le]
    have e : 2 * Real.pi * ((n : ℝ) - s) / n + Real.pi / 4 = Real.pi / 2 - (2 * Real.pi * s / n + Real.pi / 4) + 2 * Real.pi := by field_simp; ring
    simp only [e, Real.cos_add_two_pi, Real.sin_add_two_pi, Real.cos_pi_div_two_sub, Real.sin_pi_div_two_sub]
    refine Prod.ext ?_ ?_
    · show A * Real.sin _ = -(-A * Real.sin _); ring
    · show -A * Real.cos _ = -(A * Real.cos _); ring

private theorem image_rows (h k : ℕ) (hh : 0 < h) (hk : 8 ≤ k) (A a : ℝ) (m phi phi' : ℕ → ℕ → ℝ) (hm : Binary (2 * h) m) (hsym : ∀ i j, i < 2 * h → j < 2 * h → m (2 * h - 1 - i) j = m i j)
    (hphi : ∀ i j, i < 2 * h → j < 2 * h → m i j ≠ 0 → phi' i j = phi (2 * h - 1 - i) j) (stale stale' : ℕ → ℕ → ℕ → ℂ) (p q : ℕ) (hp : p < 2 * h) :
    pyrImage (max 32 (4 * k)) (2 * h) (slots (2 * h) (4 * k) A m phi' stale') (pyramidMask (2 * h) a) p q =
      pyrImage (max 32 (4 * k)) (2 * h) (slots (2 * h) (4 * k) A m phi stale) (pyramidMask (2 * h) a) (2 * h - 1 - p) q := by
  rw [(C118_convolution h (4 * k) hh (by omega) A a m phi' hm stale' p q).1, (C118_convolution h (4 * k) hh (by omega) A a m phi hm stale (2 * h - 1 - p) q).1]
  rw [← sum_invol (4 * k) (fun s => if s ≤ 3 * k then 3 * k - s else 7 * k - s) (by intro s hs; split_ifs <;> omega)
    (by intro s hs; split_ifs <;> omega)]
  refine sum_congr rfl fun s hs => ?_
  congr 2
  refine spread_rows (2 * h) (kern (2 * h) a) (kern_even _ a) _ _ ?_ p q hp
  intro i j hi hj
  unfold pupilField
  rw [hsym i j hi hj]
  by_cases h0 : m i j = 0
  · simp [h0]
  · rw [hphi i j hi hj h0]
    congr 3
    unfold modulation
    rw [point_rows A k s (mem_range.mp hs), tipTilt_eq _ (by omega), tipTilt_eq _ (by omega), show 2 * h - 1 - i = 2 * h - (1 + i) by omega, Nat.cast_sub (by omega)]
    push_cast; ring

private theorem image_cols (h k : ℕ) (hh : 0 < h) (hk : 8 ≤ k) (A a : ℝ) (m phi phi' : ℕ → ℕ → ℝ) (hm : Binary (2 * h) m) (hsym : ∀ i j, i < 2 * h → j < 2 * h → m i (2 * h - 1 - j) = m i j)
    (hphi : ∀ i j, i < 2 * h → j < 2 * h → m i j ≠ 0 → phi' i j = phi i (2 * h - 1 - j)) (stale stale' : ℕ → ℕ → ℕ → ℂ) (p q : ℕ) (hq : q < 2 * h) :
    pyrImage (max 32 (4 * k)) (2 * h) (slots (2 * h) (4 * k) A m phi' stale') (pyramidMask (2 * h) a) p q =
      pyrImage (max 32 (4 * k)) (2 * h) (slots (2 * h) (4 * k) A m phi stale) (pyramidMask (2 * h) a) p (2 * h - 1 - q) := by
  rw [(C118_convolution h (4 * k) hh (by omega) A a m phi' hm stale' p q).1, (C118_convolution h (4 * k) hh (by omega) A a m phi hm stale p (2 * h - 1 - q)).1]
  rw [← sum_invol (4 * k) (fun s => if s ≤ k then k - s else 5 * k - s) (by intro s hs; split_ifs <;> omega)
    (by intro s hs; split_ifs <;> omega)]
  refine sum_congr rfl fun s hs => ?_
  congr 2
  refine spread_cols (2 * h) (kern (2 * h) a) (kern_even _ a) _ _ ?_ p q hq
  intro i j hi hj
  unfold pupilField
  rw [hsym i j hi hj]
  by_cases h0 : m i j = 0
  · simp [h0]
  · rw [hphi i j hi hj h0]
    congr 3
    unfold modulation
    rw [point_cols A k s (mem_range.mp hs), tipTilt_eq _ (by omega), tipTilt_eq _ (by omega), show 2 * h - 1 - j = 2 * h - (1 + j) by omega, Nat.cast_sub (by omega)]
    push_cast; ring

private theorem image_turn (h nb : ℕ) (hh : 0 < h) (hnb : 32 ≤ nb) (A a : ℝ) (m phi phi' : ℕ → ℕ → ℝ) (hm : Binary (2 * h) m) (hsym : ∀ i j, i < 2 * h → j < 2 * h → m j i = m i j)
    (hphi : ∀ i j, i < 2 * h → j < 2 * h → m i j ≠ 0 → phi' i j = phi j i) (stale stale' : ℕ → ℕ → ℕ → ℂ) (p q : ℕ) :
    pyrImage (max 32 nb) (2 * h) (slots (2 * h) nb A m phi' stale') (pyramidMask (2 * h) a) p q =
      pyrImage (max 32 nb) (2 * h) (slots (2 * h) nb A m phi stale) (pyramidMask (2 * h) a) q p := by
  rw [(C118_convolution h nb hh hnb A a m phi' hm stale' p q).1, (C118_convolution h nb hh hnb A a m phi hm stale q p).1]
  rw [← sum_invol nb (fun s => if s = 0 then 0 else nb - s) (by intro s hs; split_ifs <;> omega)
    (by intro s hs; split_ifs <;> omega)]
  refine sum_congr rfl fun s hs => ?_
  congr 2
  refine spread_turn (2 * h) (kern (2 * h) a) _ _ ?_ p q
  intro i j hi hj
  unfold pupilField
  rw [hsym i j hi hj]
  by_cases h0 : m i j = 0
  · simp [h0]
  · rw [hphi i j hi hj h0]
    congr 3
    unfold modulation
    rw [point_turn A nb s (mem_range.mp hs), tipTilt_eq _ (by omega), tipTilt_eq _ (by omega)]
    ring

private theorem rebin_rows (P b : ℕ) (img img' : ℕ → ℕ → ℝ) (h : ∀ p q, p < P * b → img' p q = img (P * b - 1 - p) q) (i j : ℕ) (hi : i < P) : rebin b img' i j = rebin b img (P - 1 - i) j := by
  unfold rebin binned
  congr 1
  rw [← sum_range_reflect]
  refine sum_congr rfl fun x hx => sum_congr rfl fun y _ => ?_
  have hx' := mem_range.mp hx
  have h1 : (i + 1) * b ≤ P * b := Nat.mul_le_mul_right _ hi
  have h2 : (i + 1) * b = i * b + b := by ring
  have h3 : (P - 1 - i) * b + (i + 1) * b = P * b := by rw [← Nat.add_mul]; congr 1; omega
  rw [h _ _ (by omega)]
  congr 1
  omega

private theorem rebin_turn (b : ℕ) (img img' : ℕ → ℕ → ℝ) (h : ∀ p q, img' p q = img q p) (i j : ℕ) : rebin b img' i j = rebin b img j i := by
  unfold rebin binned
  rw [sum_comm]
  congr 1
  exact sum_congr rfl fun x _ => sum_congr rfl fun y _ => h _ _

/-- **C118 (upside down).** A wavefront turned upside down gives the image turned upside down: pupil symmetric, zero or one, a number of modulation points divisible by four and not below 32, no read noise; `P` is the number of
detector pixels across, `b` the binning. -/
theorem C118_rows (P b k : ℕ) (he : (P * b) % 2 = 0) (hP : 0 < P * b) (hk : 8 ≤ k) (A a : ℝ) (m phi phi' : ℕ → ℕ → ℝ) (hm : Binary (P * b) m) (hsym : ∀ i j, i < P * b → j < P * b → m (P * b - 1 - i) j = m i j)
    (hphi : ∀ i j, i < P * b → j < P * b → m i j ≠ 0 → phi' i j = phi (P * b - 1 - i) j) (stale stale' : ℕ → ℕ → ℕ → ℂ) (i j : ℕ) (hi : i < P) :
    framePlane (P * b) b (4 * k) A a m phi' stale' (fun _ _ => 0) i j = framePlane (P * b) b (4 * k) A a m phi stale (fun _ _ => 0) (P - 1 - i) j := by
  unfold framePlane pyrPlane
  rw [rebin_rows P b (pyrImage (max 32 (4 * k)) (P * b) (slots (P * b) (4 * k) A m phi stale) (pyramidMask (P * b) a)) _ ?_ i j hi]
  intro p q hp
  generalize P * b = N at *
  obtain ⟨h, rfl⟩ : ∃ h, N = 2 * h := ⟨N / 2, by omega⟩
  exact image_rows h k (by omega) hk A a m phi phi' hm hsym hphi stale stale' p q hp

/-- **C118 (left and right).** The same for left and right. -/
theorem C118_columns (P b k : ℕ) (he : (P * b) % 2 = 0) (hP : 0 < P * b) (hk : 8 ≤ k) (A a : ℝ) (m phi phi' : ℕ → ℕ → ℝ) (hm : Binary (P * b) m) (hsym : ∀ i j, i < P * b → j < P * b → m i (P * b - 1 - j) = m i j)
    (hphi : ∀ i j, i < P * b → j < P * b → m i j ≠ 0 → phi' i j = phi i (P * b - 1 - j)) (stale stale' : ℕ → ℕ → ℕ → ℂ) (i j : ℕ) (hj : j < P) :
    framePlane (P * b) b (4 * k) A a m phi' stale' (fun _ _ => 0) i j = framePlane (P * b) b (4 * k) A a m phi stale (fun _ _ => 0) i (P - 1 - j) := by
  unfold framePlane pyrPlane
  rw [rebin_turn b (fun p q => pyrImage (max 32 (4 * k)) (P * b) (slots (P * b) (4 * k) A m phi' stale') (pyramidMask (P * b) a) q p) _ (fun _ _ => rfl),
    rebin_rows P b (fun p q => pyrImage (max 32 (4 * k)) (P * b) (slots (P * b) (4 * k) A m phi stale) (pyramidMask (P * b) a) q p) _ ?_ j i hj]
  · rw [rebin_turn b (pyrImage (max 32 (4 * k)) (P * b) (slots (P * b) (4 * k) A m phi stale) (pyramidMask (P * b) a)) _ (fun _ _ => rfl)]
  · intro p q hp
    generalize P * b = N at *
    obtain ⟨h, rfl⟩ : ∃ h, N = 2 * h := ⟨N / 2, by omega⟩
    exact image_cols h k (by omega) hk A a m phi phi' hm hsym hphi stale stale' q p hp

/-- **C118 (rows and columns).** Exchanging rows and columns of the wavefront exchanges rows and columns of the image, for any number of modulation points not below 32. -/
theorem C118_transposed (P b nb : ℕ) (he : (P * b) % 2 = 0) (hP : 0 < P * b) (hnb : 32 ≤ nb) (A a : ℝ) (m phi phi' : ℕ → ℕ → ℝ) (hm : Binary (P * b) m) (hsym : ∀ i j, i < P * b → j < P * b → m j i = m i j)
    (hphi : ∀ i j, i < P * b → j < P * b → m i j ≠ 0 → phi' i j = phi j i) (stale stale' : ℕ → ℕ → ℕ → ℂ) (i j : ℕ) :
    framePlane (P * b) b nb A a m phi' stale' (fun _ _ => 0) i j = framePlane (P * b) b nb A a m phi stale (fun _ _ => 0) j i := by
  unfold framePlane pyrPlane
  rw [rebin_turn b (pyrImage (max 32 nb) (P * b) (slots (P * b) nb A m phi stale) (pyramidMask (P * b) a)) _ ?_ i j]
  intro p q
  generalize P * b = N at *
  obtain ⟨h, rfl⟩ : ∃ h, N = 2 * h := ⟨N / 2, by omega⟩
  exact image_turn h nb (by omega) hnb A a m phi phi' hm hsym hphi stale stale' p q

/-- The detector mask of a quadrant looks the same in a mirror and with rows and columns exchanged (a circle does). -/
def MirrorMask (M : Mask) : Prop := ∀ x y, x < M.n → y < M.n → M.sub (M.n - 1 - x) y = M.sub x y ∧ M.sub x (M.n - 1 - y) = M.sub x y ∧ M.sub y x = M.sub x y

/-- **C118 (slopes).** What this means for the measurements: an image turned upside down has its slopes along the rows (`Xslopes`) turned upside down with the opposite sign and the others (`Yslopes`) turned upside down; an image turned left
to right the other way round; with rows and columns exchanged, the two kinds of slopes are exchanged. -/
theorem C118_slopes (M : Mask) (hM : MirrorMask M) (P : ℕ) (hP : P = 2 * (M.before + M.n + M.after)) (det det' : ℕ → ℕ → ℝ) (x y : ℕ) (hx : x < M.n) (hy : y < M.n) :
    ((∀ i j, i < P → j < P → det' i j = det (P - 1 - i) j) → slopeX M det' x y = -slopeX M det (M.n - 1 - x) y ∧ slopeY M det' x y = slopeY M det (M.n - 1 - x) y) ∧
    ((∀ i j, i < P → j < P → det' i j = det i (P - 1 - j)) → slopeX M det' x y = slopeX M det x (M.n - 1 - y) ∧ slopeY M det' x y = -slopeY M det x (M.n - 1 - y)) ∧
    ((∀ i j, i < P → j < P → det' i j = det j i) → slopeX M det' x y = slopeY M det y x ∧ slopeY M det' x y = slopeX M det y x) := by
  have lt : ∀ r z, z < M.n → pupilAt M.before M.n M.after r + z < P := by
    intro r z hz; unfold pupilAt; split_ifs <;> omega
  have mir : ∀ r z, r < 2 → z < M.n → P - 1 - (pupilAt M.before M.n M.after r + z) = pupilAt M.before M.n M.after (1 - r) + (M.n - 1 - z) := by
    intro r z hr hz
    unfold pupilAt
    by_cases h0 : r = 0
    · rw [if_pos h0, if_neg (by omega)]; omega
    · rw [if_neg h0, if_pos (by omega)]; omega
  refine ⟨fun h => ?_, fun h => ?_, fun h => ?_⟩
  · have hp : ∀ r c x y, r < 2 → x < M.n → y < M.n → part M det' r c x y = part M det (1 - r) c (M.n - 1 - x) y := by
      intro r c x y hr hx hy
      unfold part
      rw [h _ _ (lt r x hx) (lt c y hy), mir r x hr hx, (hM x y hx hy).1]
    have hs : sumInt M det' = sumInt M det := by
      unfold sumInt
      rw [← sum_range_reflect]
      refine sum_congr rfl fun u hu => sum_congr rfl fun v hv => ?_
      have hu' := mem_range.mp hu
      have hv' := mem_range.mp hv
      rw [hp 0 0 _ v (by omega) (by omega) hv', hp 0 1 _ v (by omega) (by omega) hv', hp 1 0 _ v (by omega) (by omega) hv', hp 1 1 _ v (by omega) (by omega) hv', show M.n - 1 - (M.n - 1 - u) = u by omega]
      simp only [Nat.sub_zero, Nat.sub_self]
      ring
    unfold slopeX slopeY
    rw [hs, hp 0 0 x y (by omega) hx hy, hp 0 1 x y (by omega) hx hy, hp 1 0 x y (by omega) hx hy, hp 1 1 x y (by omega) hx hy]
    simp only [Nat.sub_zero, Nat.sub_self]
    constructor
    · rw [← neg_div]; congr 1; ring
    · congr 1; ring
  · have hp : ∀ r c x y, c < 2 → x < M.n → y < M.n → part M det' r c x y = part M det r (1 - c) x (M.n - 1 - y) := by
      intro r c x y hc hx hy
      unfold part
      rw [h _ _ (lt r x hx) (lt c y hy), mir c y hc hy, (hM x y hx hy).2.1]
    have hs : sumInt M det' = sumInt M det := by
      unfold sumInt
      refine sum_congr rfl fun u hu => ?_
      rw [← sum_range_reflect]
      refine sum_congr rfl fun v hv => ?_
      have hu' := mem_range.mp hu
      have hv' := mem_range.mp hv
      rw [hp 0 0 u _ (by omega) hu' (by omega), hp 0 1 u _ (by omega) hu' (by omega), hp 1 0 u _ (by omega) hu' (by omega), hp 1 1 u _ (by omega) hu' (by omega), show M.n - 1 - (M.n - 1 - v) = v by omega]
      simp only [Nat.sub_zero, Nat.sub_self]
      ring
    unfold slopeX slopeY
    rw [hs, hp 0 0 x y (by omega) hx hy, hp 0 1 x y (by omega) hx hy, hp 1 0 x y (by omega) hx hy, hp 1 1 x y (by omega) hx hy]
    simp only [Nat.sub_zero, Nat.sub_self]
    constructor
    · congr 1; ring
    · rw [← neg_div]; congr 1; ring
  · have hp : ∀ r c x y, x < M.n → y < M.n → part M det' r c x y = part M det c r y x := by
      intro r c x y hx hy
      unfold part
      rw [h _ _ (lt r x hx) (lt c y hy), (hM x y hx hy).2.2]
    have hs : sumInt M det' = sumInt M det := by
      unfold sumInt
      rw [sum_comm]
      refine sum_congr rfl fun u hu => sum_congr rfl fun v hv => ?_
      have hu' := mem_range.mp hu
      have hv' := mem_range.mp hv
      rw [hp 0 0 _ _ hv' hu', hp 0 1 _ _ hv' hu', hp 1 0 _ _ hv' hu', hp 1 1 _ _ hv' hu']
      ring
    unfold slopeX slopeY
    rw [hs, hp 0 0 x y hx hy, hp 0 1 x y hx hy, hp 1 0 x y hx hy, hp 1 1 x y hx hy]
    exact ⟨rfl, rfl⟩

/-- **C118 (equal light).** With a flat wavefront the four pupil images are equally bright and the slopes, before the reference is subtracted, add up to zero along both axes: symmetric pupil, zero or one, a number of modulation
points divisible by four and not below 32, no read noise. -/
theorem C118_equal_light (P b k : ℕ) (he : (P * b) % 2 = 0) (hP : 0 < P * b) (hk : 8 ≤ k) (A a : ℝ) (m : ℕ → ℕ → ℝ) (hm : Binary (P * b) m) (h1 : ∀ i j, i < P * b → j < P * b → m (P * b - 1 - i) j = m i j)
    (h2 : ∀ i j, i < P * b → j < P * b → m i (P * b - 1 - j) = m i j) (c : ℝ) (stale : ℕ → ℕ → ℕ → ℂ) (M : Mask) (hM : MirrorMask M) (hMP : P = 2 * (M.before + M.n + M.after)) :
    let det := framePlane (P * b) b (4 * k) A a m (fun _ _ => c) stale fun _ _ => 0
    (∀ r s, r < 2 → s < 2 → ∑ x ∈ range M.n, ∑ y ∈ range M.n, part M det r s x y = sumInt M det / 4) ∧
      ∑ x ∈ range M.n, ∑ y ∈ range M.n, slopeX M det x y = 0 ∧ ∑ x ∈ range M.n, ∑ y ∈ range M.n, slopeY M det x y = 0 := by
  intro det
  have hr : ∀ i j, i < P → det i j = det (P - 1 - i) j := fun i j hi => C118_rows P b k he hP hk A a m (fun _ _ => c) (fun _ _ => c) hm h1 (fun _ _ _ _ _ => rfl) stale stale i j hi
  have hc : ∀ i j, j < P → det i j = det i (P - 1 - j) := fun i j hj => C118_columns P b k he hP hk A a m (fun _ _ => c) (fun _ _ => c) hm h2 (fun _ _ _ _ _ => rfl) stale stale i j hj
  have lt : ∀ r z, z < M.n → pupilAt M.before M.n M.after r + z < P := by
    intro r z hz; unfold pupilAt; split_ifs <;> omega
  have mir : ∀ z, z < M.n → P - 1 - (pupilAt M.before M.n M.after 1 + z) = pupilAt M.before M.n M.after 0 + (M.n - 1 - z) := by
    intro z hz; simp only [pupilAt, one_ne_zero, if_false, if_true]; omega
  set L : ℕ → ℕ → ℝ := fun r s => ∑ x ∈ range M.n, ∑ y ∈ range M.n, part M det r s x y with hL
  have l1 : ∀ s, L 1 s = L 0 s := by
    intro s
    show ∑ x ∈ range M.n, ∑ y ∈ range M.n, part M det 1 s x y = ∑ x ∈ range M.n, ∑ y ∈ range M.n, part M det 0 s x y
    rw [← sum_range_reflect]
    refine sum_congr rfl fun x hx => sum_congr rfl fun y hy => ?_
    have hx' := mem_range.mp hx
    unfold part
    rw [hr _ _ (lt 1 _ (by omega)), mir _ (by omega), show M.n - 1 - (M.n - 1 - x) = x by omega, (hM x y hx' (mem_range.mp hy)).1]
  have l2 : ∀ r, L r 1 = L r 0 := by
    intro r
    show ∑ x ∈ range M.n, ∑ y ∈ range M.n, part M det r 1 x y = ∑ x ∈ range M.n, ∑ y ∈ range M.n, part M det r 0 x y
    refine sum_congr rfl fun x hx => ?_
    rw [← sum_range_reflect]
    refine sum_congr rfl fun y hy => ?_
    have hy' := mem_range.mp hy
    unfold part
    rw [hc _ _ (lt 1 _ (by omega)), mir _ (by omega), show M.n - 1 - (M.n - 1 - y) = y by omega, (hM x y (mem_range.mp hx) hy').2.1]
  have hsum : sumInt M det = L 0 0 + L 0 1 + L 1 0 + L 1 1 := by
    simp only [sumInt, hL, sum_add_distrib]
  refine ⟨?_, ?_, ?_⟩
  · intro r s hr2 hs2
    show L r s = _
    have e1 := l1 0
    have e2 := l1 1
    have e3 := l2 0
    obtain rfl | rfl : r = 0 ∨ r = 1 := by omega
    all_goals obtain rfl | rfl : s = 0 ∨ s = 1 := by omega
    all_goals rw [hsum]; linarith
  · simp only [slopeX, ← sum_div, sum_sub_distrib, sum_add_distrib]
    have : L 0 0 + L 0 1 - (L 1 0 + L 1 1) = 0 := by rw [l1, l1]; ring
    rw [show (∑ x ∈ range M.n, ∑ y ∈ range M.n, part M det 0 0 x y + ∑ x ∈ range M.n, ∑ y ∈ range M.n, part M det 0 1 x y -
      (∑ x ∈ range M.n, ∑ y ∈ range M.n, part M det 1 0 x y + ∑ x ∈ range M.n, ∑ y ∈ range M.n, part M det 1 1 x y)) = L 0 0 + L 0 1 - (L 1 0 + L 1 1) from rfl, this, zero_div]
  · simp only [slopeY, ← sum_div, sum_sub_distrib, sum_add_distrib]
    have : L 0 0 + L 1 0 - (L 0 1 + L 1 1) = 0 := by rw [l2, l2]; ring
    rw [show (∑ x ∈ range M.n, ∑ y ∈ range M.n, part M det 0 0 x y + ∑ x ∈ range M.n, ∑ y ∈ range M.n, part M det 1 0 x y -
      (∑ x ∈ range M.n, ∑ y ∈ range M.n, part M det 0 1 x y + ∑ x ∈ range M.n, ∑ y ∈ range M.n, part M det 1 1 x y)) = L 0 0 + L 1 0 - (L 0 1 + L 1 1) from rfl, this, zero_div]

/-! ### Witnesses and examples -/

/-- On an array of 2 × 2 elements the pyramid is flat and the image is the mask. -/
private theorem small_plane (nb : ℕ) (hnb : 32 ≤ nb) (A a : ℝ) (m phi : ℕ → ℕ → ℝ) (stale : ℕ → ℕ → ℕ → ℂ) (i j : ℕ) (hi : i < 2) (hj : j < 2) :
    rebin 1 (pyrImage (max 32 nb) 2 (slots 2 nb A m phi stale) (pyramidMask 2 a)) i j = nb * m i j ^ 2 := by
  have hr : ∀ u, u < 2 → roof 2 a u = 0 := by
    intro u hu
    obtain rfl | rfl : u = 0 ∨ u = 1 := by omega
    · have := roof_low 1 a 0 (by omega); simpa using this
    · have := roof_high 1 a 1 (by omega); simpa using this
  unfold rebin binned
  rw [sum_range_one, sum_range_one, pyrImage_eq, max_eq_right hnb]
  simp only [Nat.cast_one, one_pow, div_one, zero_add, mul_one]
  rw [sum_congr rfl (g := fun _ => m i j ^ 2)]
  · simp
  · intro s hs
    rw [amp_face 2 (by omega) _ (pyramidMask 2 a) 0 0 0 ?_ i j i j hi hj (by simp) (by simp)]
    · simp only [slots, if_pos (mem_range.mp hs), pyrField, Complex.normSq_mul, cis_normSq', mul_one, Complex.normSq_ofReal]
      ring
    · intro u v hu hv
      rw [show (2 : ℕ) = 2 * 1 from rfl, C117_roof 1 (by omega), hr u hu, hr v hv]
      simp

/-- The detector mask of one pixel per quadrant. -/
private def onePixel : Mask := ⟨0, 1, 0, fun _ _ => 1⟩

private theorem onePixel_slopes (det : ℕ → ℕ → ℝ) (h : ∀ i j, i < 2 → j < 2 → 0 ≤ det i j) :
    slopeX onePixel det 0 0 = (det 0 0 + det 0 1 - (det 1 0 + det 1 1)) / (det 0 0 + det 0 1 + det 1 0 + det 1 1) ∧ slopeY onePixel det 0 0 = (det 0 0 + det 1 0 - (det 0 1 + det 1 1)) / (det 0 0 + det 0 1 + det 1 0 + det 1 1) := by
  have hp : ∀ r c, r < 2 → c < 2 → part onePixel det r c 0 0 = det r c := by
    intro r c hr hc
    obtain rfl | rfl : r = 0 ∨ r = 1 := by omega
    all_goals obtain rfl | rfl : c = 0 ∨ c = 1 := by omega
    all_goals
      simp only [part, onePixel, pupilAt, if_true, one_ne_zero, if_false, zero_add, add_zero, mul_one]
      exact abs_of_nonneg (h _ _ (by omega) (by omega))
  have hs : sumInt onePixel det = det 0 0 + det 0 1 + det 1 0 + det 1 1 := by
    show ∑ x ∈ range 1, ∑ y ∈ range 1, _ = _
    rw [sum_range_one, sum_range_one, hp 0 0, hp 0 1, hp 1 0, hp 1 1] <;> omega
  unfold slopeX slopeY
  rw [hs, hp 0 0, hp 0 1, hp 1 0, hp 1 1]
  exacts [⟨rfl, rfl⟩, by omega, by omega, by omega, by omega, by omega, by omega, by omega, by omega]

/-- **C116 (mask, violated).** `setMask` "can be called during a simulation", but the reference remains that of the old mask: a pupil of 2 × 2 elements of which all but one are covered later, and a flat wavefront is measured as one
along both axes. -/
theorem C116_mask_violated (A a : ℝ) (stale stale' : ℕ → ℕ → ℕ → ℂ) :
    measured onePixel (flatPlane 2 1 32 A a (fun _ _ => 1) stale fun _ _ => 0) (framePlane 2 1 32 A a (fun i j => if i = 0 ∧ j = 0 then 1 else 0) (fun _ _ => 0) stale' fun _ _ => 0) 0 0 = (1, 1) := by
  have hf : ∀ i j, i < 2 → j < 2 → flatPlane 2 1 32 A a (fun _ _ => 1) stale (fun _ _ => 0) i j = 32 := by
    intro i j hi hj
    unfold flatPlane
    rw [small_plane 32 le_rfl A a _ _ stale i j hi hj]; norm_num
  have hd : ∀ i j, i < 2 → j < 2 → framePlane 2 1 32 A a (fun i j => if i = 0 ∧ j = 0 then 1 else 0) (fun _ _ => 0) stale' (fun _ _ => 0) i j = if i = 0 ∧ j = 0 then 1 else 0 := by
    intro i j hi hj
    unfold framePlane pyrPlane
    rw [small_plane 32 le_rfl A a _ _ stale' i j hi hj]
    split_ifs <;> norm_num
  have f := onePixel_slopes (flatPlane 2 1 32 A a (fun _ _ => 1) stale fun _ _ => 0) (fun i j hi hj => by rw [hf i j hi hj]; norm_num)
  have d := onePixel_slopes (framePlane 2 1 32 A a (fun i j => if i = 0 ∧ j = 0 then 1 else 0) (fun _ _ => 0) stale' fun _ _ => 0) (fun i j hi hj => by rw [hd i j hi hj]; split_ifs <;> norm_num)
  rw [measured, f.1, f.2, d.1, d.2]
  simp only [hf 0 0 (by omega) (by omega), hf 0 1 (by omega) (by omega), hf 1 0 (by omega) (by omega), hf 1 1 (by omega) (by omega),
    hd 0 0 (by omega) (by omega), hd 0 1 (by omega) (by omega), hd 1 0 (by omega) (by omega), hd 1 1 (by omega) (by omega)]
  norm_num

/-- **C116 (noise, violated).** With read noise the reference is noisy as well and stays so: noise in one pixel at initialisation, and a flat wavefront without noise (as for the interaction matrix) is never measured as zero. -/
theorem C116_noise_violated (A a : ℝ) (stale stale' : ℕ → ℕ → ℕ → ℂ) :
    measured onePixel (flatPlane 2 1 32 A a (fun _ _ => 1) stale fun i j => if i = 0 ∧ j = 0 then 32 else 0) (framePlane 2 1 32 A a (fun _ _ => 1) (fun _ _ => 0) stale' fun _ _ => 0) 0 0 = (-1 / 5, -1 / 5) := by
  have hf : ∀ i j, i < 2 → j < 2 → flatPlane 2 1 32 A a (fun _ _ => 1) stale (fun i j => if i = 0 ∧ j = 0 then 32 else 0) i j = if i = 0 ∧ j = 0 then 64 else 32 := by
    intro i j hi hj
    unfold flatPlane
    rw [small_plane 32 le_rfl A a _ _ stale i j hi hj]
    by_cases h : i = 0 ∧ j = 0
    · simp only [if_pos h]; norm_num
    · simp only [if_neg h]; norm_num
  have hd : ∀ i j, i < 2 → j < 2 → framePlane 2 1 32 A a (fun _ _ => 1) (fun _ _ => 0) stale' (fun _ _ => 0) i j = 1 := by
    intro i j hi hj
    unfold framePlane pyrPlane
    rw [small_plane 32 le_rfl A a _ _ stale' i j hi hj]; norm_num
  have f := onePixel_slopes (flatPlane 2 1 32 A a (fun _ _ => 1) stale fun i j => if i = 0 ∧ j = 0 then 32 else 0) (fun i j hi hj => by rw [hf i j hi hj]; split_ifs <;> norm_num)
  have d := onePixel_slopes (framePlane 2 1 32 A a (fun _ _ => 1) (fun _ _ => 0) stale' fun _ _ => 0) (fun i j hi hj => by rw [hd i j hi hj]; norm_num)
  rw [measured, f.1, f.2, d.1, d.2]
  simp only [hf 0 0 (by omega) (by omega), hf 0 1 (by omega) (by omega), hf 1 0 (by omega) (by omega), hf 1 1 (by omega) (by omega),
    hd 0 0 (by omega) (by omega), hd 0 1 (by omega) (by omega), hd 1 0 (by omega) (by omega), hd 1 1 (by omega) (by omega)]
  norm_num

/-- A flat wavefront of height 7 behind 4 × 4 lit elements, binned by 2, is measured as zero. -/
example (A a : ℝ) (stale stale' : ℕ → ℕ → ℕ → ℂ) (M : Mask) (x y : ℕ) :
    measured M (flatPlane 4 2 32 A a (fun _ _ => 1) stale fun _ _ => 0) (framePlane 4 2 32 A a (fun _ _ => 1) (fun _ _ => 7) stale' fun _ _ => 0) x y = (0, 0) :=
  C116_flat_partial 2 2 32 le_rfl A a _ _ (fun _ _ _ _ => .inr rfl) 7 (fun _ _ _ _ _ => rfl) stale stale' M x y

/-- Two pixels across the pupil, two elements to a pixel, separation two, eight pixels across the detector: the apex angle is that of a shift by four elements. -/
example : apex (2 * 2) 2 16 2 = 2 * Real.pi * (4 : ℕ) / (16 : ℕ) := C117_apex 2 2 16 4 (by omega) 2 (by norm_num)

/-- A point of light in the corner of that pupil arrives in the corners of the four images. -/
example (r c : ℕ) (hr : r < 2) (hc : c < 2) :
    rebin 2 (pyrImage 1 16 (fun _ j k => if j = 6 ∧ k = 6 then 1 else 0) fun u v => 0 + (2 * Real.pi * (((towards r * 4 : ℤ) : ℝ) * u) / (16 : ℕ) + 2 * Real.pi * (((towards c * 4 : ℤ) : ℝ) * v) / (16 : ℕ)))
      (pupilAt 1 2 1 r + 0) (pupilAt 1 2 1 c + 0) = 1 / 4 := by
  have := C117_image_partial 4 2 2 1 4 6 (by omega) (by omega) (by omega) (by omega) (fun j k => if j = 6 ∧ k = 6 then 1 else 0)
    (fun u v => 0 + (2 * Real.pi * (((towards r * 4 : ℤ) : ℝ) * u) / (16 : ℕ) + 2 * Real.pi * (((towards c * 4 : ℤ) : ℝ) * v) / (16 : ℕ))) 0 r c hr hc (fun u v _ _ => rfl) 0 0 (by omega) (by omega)
  refine this.trans ?_
  simp [sum_range_succ]
  norm_num

/-- The default separation of 10 pixels and the next odd one have the same detector mask. -/
example : Sensors.pupilRange 50 20 10 = (25, 45) ∧ Sensors.pupilRange 50 20 11 = (25, 45) := by
  have := C117_mask 50 20 5 (by omega)
  norm_num at this
  exact this

/-- A slope along the rows of 8 lit elements gives, turned upside down, the image turned upside down. -/
example (A a : ℝ) (stale stale' : ℕ → ℕ → ℕ → ℂ) (i j : ℕ) (hi : i < 4) :
    framePlane 8 2 32 A a (fun _ _ => 1) (fun i _ => 7 - i) stale' (fun _ _ => 0) i j = framePlane 8 2 32 A a (fun _ _ => 1) (fun i _ => i) stale (fun _ _ => 0) (4 - 1 - i) j :=
  C118_rows 4 2 8 (by omega) (by omega) le_rfl A a (fun _ _ => 1) (fun i _ => i) (fun i _ => 7 - i) (fun _ _ _ _ => .inr rfl) (fun _ _ _ _ => rfl)
    (fun i j hi _ _ => by rw [show 4 * 2 - 1 - i = 7 - i by omega, Nat.cast_sub (by omega)]; norm_num) stale stale' i j hi

end Soapy.Props
