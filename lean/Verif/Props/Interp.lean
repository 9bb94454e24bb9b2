/-
Property theorem C29: interpolation.
-/
import Verif.Lemmas.Interp

namespace Soapy.Props

open Soapy.Mirror Soapy.Interp

/-- **C29 (safe, between the neighbours).** At coordinates in `[0, n-1)` the interpolation (with or without bounds check) only reads the four samples
around the point, which exist, and returns a value between their minimum and maximum. -/
theorem C29_safe (check : Bool) (a : Arr2) (x y : ℚ) (hx : 0 ≤ x ∧ x < a.rows - 1) (hy : 0 ≤ y ∧ y < a.cols - 1) :
    ∃ (v : ℚ) (i j : ℕ), interpVal check a x y = .ok v ∧ i + 1 < a.rows ∧ j + 1 < a.cols ∧
      (i : ℚ) ≤ x ∧ x < i + 1 ∧ (j : ℚ) ≤ y ∧ y < j + 1 ∧
      min (min (a.px i j) (a.px (i + 1) j)) (min (a.px i (j + 1)) (a.px (i + 1) (j + 1))) ≤ v ∧
      v ≤ max (max (a.px i j) (a.px (i + 1) j)) (max (a.px i (j + 1)) (a.px (i + 1) (j + 1))) := by
  obtain ⟨i, hi, hi1, hi2⟩ := cell_exists a.rows x hx.1 hx.2
  obtain ⟨j, hj, hj1, hj2⟩ := cell_exists a.cols y hy.1 hy.2
  have e : interpVal check a x y = bilinAt a x y := by
    unfold interpVal clampHi
    cases check
    · rfl
    · simp [not_le.mpr hx.2, not_le.mpr hy.2]
  rw [e, bilinAt_ok a x y i j ⟨hi1, hi2⟩ ⟨hj1, hj2⟩ hi hj]
  refine ⟨_, i, j, rfl, hi, hj, hi1, hi2, hj1, hj2, ?_, ?_⟩
  all_goals
    generalize a.px i j = p
    generalize a.px (i + 1) j = q
    generalize a.px i (j + 1) = r
    generalize a.px (i + 1) (j + 1) = s
    have u0 : 0 ≤ x - i := by linarith
    have u1 : 0 ≤ 1 - (x - i) := by linarith
    have v0 : 0 ≤ y - j := by linarith
    have v1 : 0 ≤ 1 - (y - j) := by linarith
    generalize x - i = u at u0 u1
    generalize y - j = w at v0 v1
    have a1 := mul_nonneg u1 v1
    have a2 := mul_nonneg u0 v1
    have a3 := mul_nonneg u1 v0
    have a4 := mul_nonneg u0 v0
  · set m := min (min p q) (min r s) with hm
    have h1 : m ≤ p := (min_le_left _ _).trans (min_le_left _ _)
    have h2 : m ≤ q := (min_le_left _ _).trans (min_le_right _ _)
    have h3 : m ≤ r := (min_le_right _ _).trans (min_le_left _ _)
    have h4 : m ≤ s := (min_le_right _ _).trans (min_le_right _ _)
    nlinarith [mul_le_mul_of_nonneg_left h1 a1, mul_le_mul_of_nonneg_left h2 a2, mul_le_mul_of_nonneg_left h3 a3,
      mul_le_mul_of_nonneg_left h4 a4]
  · set m := max (max p q) (max r s) with hm
    have h1 : p ≤ m := (le_max_left _ _).trans (le_max_left _ _)
    have h2 : q ≤ m := (le_max_right _ _).trans (le_max_left _ _)
    have h3 : r ≤ m := (le_max_left _ _).trans (le_max_right _ _)
    have h4 : s ≤ m := (le_max_right _ _).trans (le_max_right _ _)
    nlinarith [mul_le_mul_of_nonneg_left h1 a1, mul_le_mul_of_nonneg_left h2 a2, mul_le_mul_of_nonneg_left h3 a3,
      mul_le_mul_of_nonneg_left h4 a4]

/-- A 3 × 3 array of squares. -/
def toyArr : Arr2 := ⟨3, 3, fun i j => i ^ 2 + 10 * j⟩

example : interpVal true toyArr (3 / 2) (1 / 4) = .ok 5 := by decide +kernel

/-- **C29 (samples).** At integer coordinates the sample itself is returned. -/
theorem C29_samples (check : Bool) (a : Arr2) (i j : ℕ) (hi : i + 1 < a.rows) (hj : j + 1 < a.cols) :
    interpVal check a i j = .ok (a.px i j) := by
  have hi' : (i : ℚ) + 1 < a.rows := by exact_mod_cast hi
  have hj' : (j : ℚ) + 1 < a.cols := by exact_mod_cast hj
  have e : interpVal check a i j = bilinAt a i j := by
    unfold interpVal clampHi
    cases check
    · rfl
    · simp [not_le.mpr (show (i : ℚ) < a.rows - 1 by linarith), not_le.mpr (show (j : ℚ) < a.cols - 1 by linarith)]
  rw [e, bilinAt_ok a i j i j ⟨le_refl _, by linarith⟩ ⟨le_refl _, by linarith⟩ hi hj]
  simp

example : interpVal false toyArr 1 1 = .ok 11 := by decide +kernel

/-- **C29 (exact).** Data of the form `α + β i + γ j + δ i j` are interpolated exactly. -/
theorem C29_exact_on_bilinear (check : Bool) (a : Arr2) (α β γ δ : ℚ)
    (ha : ∀ i j : ℕ, i < a.rows → j < a.cols → a.px i j = α + β * i + γ * j + δ * i * j)
    (x y : ℚ) (hx : 0 ≤ x ∧ x < a.rows - 1) (hy : 0 ≤ y ∧ y < a.cols - 1) :
    interpVal check a x y = .ok (α + β * x + γ * y + δ * x * y) := by
  obtain ⟨i, hi, hi1, hi2⟩ := cell_exists a.rows x hx.1 hx.2
  obtain ⟨j, hj, hj1, hj2⟩ := cell_exists a.cols y hy.1 hy.2
  have e : interpVal check a x y = bilinAt a x y := by
    unfold interpVal clampHi
    cases check
    · rfl
    · simp [not_le.mpr hx.2, not_le.mpr hy.2]
  rw [e, bilinAt_ok a x y i j ⟨hi1, hi2⟩ ⟨hj1, hj2⟩ hi hj, ha i j (by omega) (by omega), ha (i + 1) j hi (by omega),
    ha i (j + 1) (by omega) hj, ha (i + 1) (j + 1) hi hj]
  congr 1
  push_cast
  ring

example : interpVal true ⟨3, 3, fun i j => 2 + 3 * i + 5 * j + i * j⟩ (3 / 2) (1 / 4) =
    .ok (2 + 3 * (3 / 2) + 5 * (1 / 4) + 1 * (3 / 2) * (1 / 4)) :=
  C29_exact_on_bilinear true _ 2 3 5 1 (by intro i j _ _; simp) _ _ (by norm_num) (by norm_num)

/-- **C29 (linear).** Interpolating a linear combination of arrays gives the linear combination of the interpolated values. -/
theorem C29_linear (check : Bool) (n m : ℕ) (f g : ℕ → ℕ → ℚ) (s t x y : ℚ) (hx : 0 ≤ x ∧ x < n - 1) (hy : 0 ≤ y ∧ y < m - 1) :
    ∃ v w, interpVal check ⟨n, m, f⟩ x y = .ok v ∧ interpVal check ⟨n, m, g⟩ x y = .ok w ∧
      interpVal check ⟨n, m, fun i j => s * f i j + t * g i j⟩ x y = .ok (s * v + t * w) := by
  obtain ⟨i, hi, hi1, hi2⟩ := cell_exists n x hx.1 hx.2
  obtain ⟨j, hj, hj1, hj2⟩ := cell_exists m y hy.1 hy.2
  have e : ∀ h : ℕ → ℕ → ℚ, interpVal check ⟨n, m, h⟩ x y = bilinAt ⟨n, m, h⟩ x y := by
    intro h
    unfold interpVal clampHi
    cases check
    · rfl
    · simp [not_le.mpr hx.2, not_le.mpr hy.2]
  rw [e, e, e]
  rw [bilinAt_ok _ x y i j ⟨hi1, hi2⟩ ⟨hj1, hj2⟩ hi hj, bilinAt_ok _ x y i j ⟨hi1, hi2⟩ ⟨hj1, hj2⟩ hi hj,
    bilinAt_ok _ x y i j ⟨hi1, hi2⟩ ⟨hj1, hj2⟩ hi hj]
  refine ⟨_, _, rfl, rfl, ?_⟩
  congr 1
  ring

example : ∃ v w, interpVal true ⟨3, 3, fun i _ => i⟩ (1 / 2) 1 = .ok v ∧ interpVal true ⟨3, 3, fun _ j => j⟩ (1 / 2) 1 = .ok w ∧
    interpVal true ⟨3, 3, fun i j => 2 * (i : ℚ) + 3 * (j : ℚ)⟩ (1 / 2) 1 = .ok (2 * v + 3 * w) :=
  C29_linear true 3 3 _ _ 2 3 _ _ (by norm_num) (by norm_num)

/-- **C29 (bounds check).** With the bounds check (the default) every coordinate `≥ 0`, however large, gives a value, from samples that exist. -/
theorem C29_checked_total (a : Arr2) (x y : ℚ) (hr : 2 ≤ a.rows) (hc : 2 ≤ a.cols) (hx : 0 ≤ x) (hy : 0 ≤ y) :
    ∃ v, interpVal true a x y = .ok v := by
  have key : ∀ (n : ℕ) (z : ℚ), 2 ≤ n → 0 ≤ z → 0 ≤ clampHi n z ∧ clampHi n z < n - 1 := by
    intro n z hn hz
    have : (2 : ℚ) ≤ n := by exact_mod_cast hn
    unfold clampHi
    split_ifs with h
    · constructor
      · norm_num; linarith
      · norm_num
    · exact ⟨hz, not_le.mp h⟩
  obtain ⟨hx0, hx1⟩ := key a.rows x hr hx
  obtain ⟨hy0, hy1⟩ := key a.cols y hc hy
  obtain ⟨v, _, _, h, _⟩ := C29_safe false a _ _ ⟨hx0, hx1⟩ ⟨hy0, hy1⟩
  exact ⟨v, by simpa [interpVal] using h⟩

example : ∃ v, interpVal true toyArr 100 0 = .ok v := C29_checked_total toyArr 100 0 (by decide) (by decide) (by norm_num) (by norm_num)

/-- **C29 (arrays).** With the bounds check an array of coordinates `≥ 0`, however large, gives an array of the right shape; every element lies between the samples around the point, a coordinate beyond the last sample being taken for one between the last two. -/
theorem C29_array (a : Arr2) (xs ys : List ℚ) (hr : 2 ≤ a.rows) (hc : 2 ≤ a.cols) (hx : ∀ x ∈ xs, 0 ≤ x) (hy : ∀ y ∈ ys, 0 ≤ y) :
    ∃ res, interp true a xs ys = .ok res ∧ res.length = xs.length ∧ (∀ row ∈ res, row.length = ys.length) ∧
      ∀ (k l : ℕ) (x y : ℚ), xs[k]? = some x → ys[l]? = some y → ∃ (v : ℚ) (i j : ℕ), (res[k]?.bind (·[l]?)) = some v ∧ i + 1 < a.rows ∧ j + 1 < a.cols ∧
        (x < a.rows - 1 → (i : ℚ) ≤ x ∧ x < i + 1) ∧ (y < a.cols - 1 → (j : ℚ) ≤ y ∧ y < j + 1) ∧ ((a.rows : ℚ) - 1 ≤ x → i + 2 = a.rows) ∧ ((a.cols : ℚ) - 1 ≤ y → j + 2 = a.cols) ∧
        min (min (a.px i j) (a.px (i + 1) j)) (min (a.px i (j + 1)) (a.px (i + 1) (j + 1))) ≤ v ∧
        v ≤ max (max (a.px i j) (a.px (i + 1) j)) (max (a.px i (j + 1)) (a.px (i + 1) (j + 1))) := by
  have key : ∀ (n : ℕ) (z : ℚ), 2 ≤ n → 0 ≤ z → 0 ≤ clampHi n z ∧ clampHi n z < n - 1 ∧ (z < n - 1 → clampHi n z = z) ∧ ((n : ℚ) - 1 ≤ z → (n : ℚ) - 2 ≤ clampHi n z) := by
    intro n z hn hz
    have : (2 : ℚ) ≤ n := by exact_mod_cast hn
    unfold clampHi
    split_ifs with h
    · refine ⟨?_, ?_, fun h' => absurd h (not_le.mpr h'), fun _ => ?_⟩
      · norm_num; linarith
      · norm_num
      · norm_num; linarith
    · exact ⟨hz, not_le.mp h, fun _ => rfl, fun h' => absurd h' h⟩
  have val : ∀ x y : ℚ, ∃ v, 0 ≤ x → 0 ≤ y → interpVal true a x y = .ok v := by
    intro x y
    by_cases h : 0 ≤ x ∧ 0 ≤ y
    · obtain ⟨v, hv⟩ := C29_checked_total a x y hr hc h.1 h.2
      exact ⟨v, fun _ _ => hv⟩
    · exact ⟨0, fun h1 h2 => absurd ⟨h1, h2⟩ h⟩
  choose f hf using val
  refine ⟨xs.map fun x => ys.map (f x), mapM_ok _ _ _ fun x h1 => mapM_ok _ _ _ fun y h2 => hf x y (hx x h1) (hy y h2), by simp, by simp, ?_⟩
  intro k l x y hk hl
  have hx0 := hx x (List.mem_of_getElem? hk)
  have hy0 := hy y (List.mem_of_getElem? hl)
  obtain ⟨kx0, kx1, kx2, kx3⟩ := key a.rows x hr hx0
  obtain ⟨ky0, ky1, ky2, ky3⟩ := key a.cols y hc hy0
  obtain ⟨v, i, j, h, hi, hj, i1, i2, j1, j2, b1, b2⟩ := C29_safe false a _ _ ⟨kx0, kx1⟩ ⟨ky0, ky1⟩
  have hv : f x y = v := by
    have e : interpVal true a x y = interpVal false a (clampHi a.rows x) (clampHi a.cols y) := by simp [interpVal]
    have := hf x y hx0 hy0
    rw [e, h, Except.ok.injEq] at this
    exact this.symm
  refine ⟨v, i, j, ?_, hi, hj, fun hlt => ?_, fun hlt => ?_, fun hge => ?_, fun hge => ?_, b1, b2⟩
  · simp [List.getElem?_map, hk, hl, hv]
  · rw [kx2 hlt] at i1 i2; exact ⟨i1, i2⟩
  · rw [ky2 hlt] at j1 j2; exact ⟨j1, j2⟩
  · have h3 := kx3 hge
    have : (a.rows : ℚ) < i + 3 := by linarith
    have : a.rows < i + 3 := by exact_mod_cast this
    omega
  · have h3 := ky3 hge
    have : (a.cols : ℚ) < j + 3 := by linarith
    have : a.cols < j + 3 := by exact_mod_cast this
    omega

/-- A coordinate far beyond the array: with the check there is a result, without it there is none. -/
example : (∃ res, interp true toyArr [0, 100] [1 / 2] = .ok res ∧ res.length = 2) ∧ interp false toyArr [0, 100] [1 / 2] = .error .indexError := by
  refine ⟨?_, by decide +kernel⟩
  obtain ⟨res, h1, h2, _⟩ := C29_array toyArr [0, 100] [1 / 2] (by decide) (by decide) (by simp) (by simp)
  exact ⟨res, h1, h2⟩

/-- The limits are sharp: without bounds check the last sample coordinate `n - 1` already reads beyond the array, and a negative coordinate silently
uses samples from the opposite edge. -/
theorem C29_limits : interpVal false toyArr 2 0 = .error .indexError ∧
    interpVal true toyArr (-2) 0 = .ok (toyArr.px 1 0) ∧ interpVal true toyArr (-1) 0 = .ok (toyArr.px 2 0) := by
  decide +kernel

/-- **C29 (zoom).** `zoom` to any size `≥ 1` only reads existing samples, maps the first sample to the first sample, and is exact on bilinear data. -/
theorem C29_zoom (a : Arr2) (α β γ δ : ℚ) (m1 m2 : ℕ) (hr : 2 ≤ a.rows) (hc : 2 ≤ a.cols)
    (ha : ∀ i j : ℕ, i < a.rows → j < a.cols → a.px i j = α + β * i + γ * j + δ * i * j) :
    zoom a m1 m2 = .ok ((List.range m1).map fun k => (List.range m2).map fun l =>
      α + β * zoomCoord a.rows m1 k + γ * zoomCoord a.cols m2 l + δ * zoomCoord a.rows m1 k * zoomCoord a.cols m2 l) ∧
    (∀ k, k < m1 → 0 ≤ zoomCoord a.rows m1 k ∧ zoomCoord a.rows m1 k < a.rows - 1) ∧ zoomCoord a.rows m1 0 = 0 := by
  have key : ∀ n m k : ℕ, 2 ≤ n → k < m → 0 ≤ zoomCoord n m k ∧ zoomCoord n m k < n - 1 := by
    intro n m k hn hk
    have h2 : (2 : ℚ) ≤ n := by exact_mod_cast hn
    have hk' : (k : ℚ) + 1 ≤ m := by exact_mod_cast hk
    have hk0 : (0 : ℚ) ≤ k := by positivity
    unfold zoomCoord
    have hd : (0 : ℚ) < m - 99999999 / 100000000 := by linarith
    constructor
    · apply div_nonneg _ hd.le
      exact mul_nonneg hk0 (by linarith)
    · rw [div_lt_iff₀ hd]
      have : (0 : ℚ) < n - 1 := by linarith
      rw [mul_comm]
      exact mul_lt_mul_of_pos_left (by linarith) this
  refine ⟨?_, fun k hk => key _ _ _ hr hk, by simp [zoomCoord]⟩
  unfold zoom interp
  rw [mapM_ok _ (fun x => ((List.range m2).map fun k => zoomCoord a.cols m2 k).map fun y =>
    α + β * x + γ * y + δ * x * y)]
  · simp [List.map_map, Function.comp_def]
  · intro x hx
    obtain ⟨k, hk, rfl⟩ := List.mem_map.mp hx
    apply mapM_ok
    intro y hy
    obtain ⟨l, hl, rfl⟩ := List.mem_map.mp hy
    exact C29_exact_on_bilinear false a α β γ δ ha _ _ (key _ _ _ hr (by simpa using hk)) (key _ _ _ hc (by simpa using hl))

/-- **C29 (general zoom).** Whatever the data, `zoom` never reads outside the array. -/
theorem C29_zoom_safe (a : Arr2) (m1 m2 : ℕ) (hr : 2 ≤ a.rows) (hc : 2 ≤ a.cols) : ∃ r, zoom a m1 m2 = .ok r := by
  have key : ∀ n m k : ℕ, 2 ≤ n → k < m → 0 ≤ zoomCoord n m k ∧ zoomCoord n m k < n - 1 := by
    intro n m k hn hk
    have := C29_zoom ⟨n, n, fun _ _ => 0⟩ 0 0 0 0 m m hn hn (by simp)
    exact this.2.1 k hk
  have h : ∀ x y : ℚ, ∃ v, (0 ≤ x ∧ x < a.rows - 1) → (0 ≤ y ∧ y < a.cols - 1) → interpVal false a x y = .ok v := by
    intro x y
    by_cases hx : 0 ≤ x ∧ x < a.rows - 1
    · by_cases hy : 0 ≤ y ∧ y < a.cols - 1
      · obtain ⟨v, _, _, h, _⟩ := C29_safe false a x y hx hy
        exact ⟨v, fun _ _ => h⟩
      · exact ⟨0, fun _ h => absurd h hy⟩
    · exact ⟨0, fun h => absurd h hx⟩
  choose f hf using h
  unfold zoom interp
  refine ⟨_, mapM_ok _ (fun x => ((List.range m2).map fun k => zoomCoord a.cols m2 k).map (f x)) _ ?_⟩
  intro x hx
  obtain ⟨k, hk, rfl⟩ := List.mem_map.mp hx
  apply mapM_ok
  intro y hy
  obtain ⟨l, hl, rfl⟩ := List.mem_map.mp hy
  exact hf _ _ (key _ _ _ hr (by simpa using hk)) (key _ _ _ hc (by simpa using hl))

example : zoom ⟨2, 2, fun i j => i + j⟩ 1 1 = .ok [[0]] := by decide +kernel

end Soapy.Props
