/-
Property theorems C102: a science camera samples phase and pupil at the same places, and its plate scale.
-/
import Verif.Model.Plate
import Verif.Props.Psf
import Verif.Props.Spot
import Verif.Props.Interp

namespace Soapy.Props

open Soapy.Mirror Soapy.Interp Soapy.Spot Soapy.Psf Soapy.Plate Finset

/-! ### Where phase and mask are taken -/

/-- Element `k` of the coordinates without the clip. -/
def phaseCoord (P pad F k : ℕ) : ℚ := pad + (k : ℚ) * P / ((F : ℚ) - 1)

theorem phaseCoord_range (P pad F k : ℕ) (hF : 2 ≤ F) (hk : k < F) : (pad : ℚ) ≤ phaseCoord P pad F k ∧ phaseCoord P pad F k ≤ pad + P := by
  have h1 : (0 : ℚ) < (F : ℚ) - 1 := by
    have : (2 : ℚ) ≤ F := by exact_mod_cast hF
    linarith
  have hk' : (k : ℚ) ≤ (F : ℚ) - 1 := by
    have : (k : ℚ) + 1 ≤ F := by exact_mod_cast hk
    linarith
  unfold phaseCoord
  constructor
  · have : (0 : ℚ) ≤ (k : ℚ) * P / ((F : ℚ) - 1) := by positivity
    linarith
  · have : (k : ℚ) * P / ((F : ℚ) - 1) ≤ P := by
      rw [div_le_iff₀ h1]
      have : (0 : ℚ) ≤ P := by positivity
      nlinarith
    linarith

/-- The coordinates of a camera with at least two elements, on a screen with at least two pixels of padding: none is clipped. -/
theorem interpCoords_eq (P pad F : ℕ) (hF : 2 ≤ F) (hpad : 2 ≤ pad) : interpCoords P pad (P + 2 * pad) F = (List.range F).map (phaseCoord P pad F) := by
  unfold interpCoords linspace
  rw [List.map_map]
  apply List.map_congr_left
  intro k hk
  have hk' := List.mem_range.mp hk
  obtain ⟨h1, h2⟩ := phaseCoord_range P pad F k hF hk'
  have hp : (2 : ℚ) ≤ pad := by exact_mod_cast hpad
  have e : (pad : ℚ) + k * ((P + pad - pad) / ((F : ℚ) - 1)) = phaseCoord P pad F k := by unfold phaseCoord; ring
  simp only [Function.comp_apply, if_neg (show F ≠ 1 by omega), e, clip]
  rw [max_eq_left (by linarith), min_eq_left]
  push_cast
  linarith

/-- **C102 (registration).** Element `k` of the aperture shows the mask of one place and the phase of a place `k / (F - 1)` pixels further on: the same place at the first element, one whole pixel apart at the last. -/
theorem C102_offset (P pad F k : ℕ) (hF : 2 ≤ F) (hpad : 2 ≤ pad) (hk : k < F) :
    (interpCoords P pad (P + 2 * pad) F)[k]? = some (maskCoord P pad F k + (k : ℚ) / ((F : ℚ) - 1)) := by
  rw [interpCoords_eq P pad F hF hpad, List.getElem?_map, List.getElem?_range hk]
  have h1 : (F : ℚ) - 1 ≠ 0 := by
    have : (2 : ℚ) ≤ F := by exact_mod_cast hF
    intro h; linarith
  simp only [Option.map_some, Option.some.injEq, phaseCoord, maskCoord, Tools.linspace0, if_neg (show ¬ F ≤ 1 by omega)]
  field_simp
  ring

/-- With one pixel of padding only the last element differs: it is clipped to `0.99999` pixels after the mask. -/
theorem C102_offset_pad_one (P F k : ℕ) (hF : 2 ≤ F) (hP : 2 ≤ P) (hFP : F ≤ 100000 * P) (hk : k < F) :
    (interpCoords P 1 (P + 2) F)[k]? = some (maskCoord P 1 F k + if k + 1 = F then 99999 / 100000 else (k : ℚ) / ((F : ℚ) - 1)) := by
  have hF' : (2 : ℚ) ≤ F := by exact_mod_cast hF
  have h1 : (0 : ℚ) < (F : ℚ) - 1 := by linarith
  have h1' : (F : ℚ) - 1 ≠ 0 := h1.ne'
  unfold interpCoords linspace
  rw [List.getElem?_map, List.getElem?_map, List.getElem?_range hk]
  simp only [Option.map_some, if_neg (show F ≠ 1 by omega), maskCoord, Tools.linspace0, if_neg (show ¬ F ≤ 1 by omega), clip, Nat.cast_one, Option.some.injEq]
  have e : (1 : ℚ) + k * ((P + 1 - 1) / ((F : ℚ) - 1)) = phaseCoord P 1 F k := by unfold phaseCoord; push_cast; ring
  obtain ⟨ha, hb⟩ := phaseCoord_range P 1 F k hF hk
  rw [e, max_eq_left (by push_cast at ha; linarith)]
  by_cases hl : k + 1 = F
  · rw [if_pos hl]
    have hk' : (k : ℚ) = F - 1 := by rw [← hl]; push_cast; ring
    have : phaseCoord P 1 F k = 1 + P := by unfold phaseCoord; rw [hk']; push_cast; field_simp
    rw [this, min_eq_right (by push_cast; linarith), hk']
    push_cast; field_simp; ring
  · rw [if_neg hl, min_eq_left]
    · unfold phaseCoord; push_cast; field_simp; ring
    · have hk2 : (k : ℚ) ≤ F - 2 := by
        have : ((k + 2 : ℕ) : ℚ) ≤ F := by exact_mod_cast (show k + 2 ≤ F by omega)
        push_cast at this; linarith
      have hFP' : (F : ℚ) ≤ 100000 * P := by exact_mod_cast hFP
      have hq : (k : ℚ) * P / ((F : ℚ) - 1) ≤ P - 1 / 100000 := by
        rw [div_le_iff₀ h1]
        have : (0 : ℚ) ≤ P := by positivity
        nlinarith
      unfold phaseCoord
      push_cast
      linarith

theorem mapM_congr {α β : Type} {f g : α → Except PyErr β} {xs : List α} (h : ∀ x ∈ xs, f x = g x) : xs.mapM f = xs.mapM g := by
  induction xs with
  | nil => rfl
  | cons x xs ih => rw [List.mapM_cons, List.mapM_cons, h x (by simp), ih fun y hy => h y (by simp [hy])]

/-- **C102 (only the pupil and one pixel more).** The sampled phase depends on the pixels `pad, …, pad + P` of the line of sight alone. -/
theorem C102_local (phase phase' : Arr2) (P pad F : ℕ) (hF : 2 ≤ F) (hpad : 2 ≤ pad) (hr : phase.rows = P + 2 * pad) (hc : phase.cols = P + 2 * pad)
    (hr' : phase'.rows = P + 2 * pad) (hc' : phase'.cols = P + 2 * pad)
    (heq : ∀ i j : ℕ, pad ≤ i → i ≤ pad + P → pad ≤ j → j ≤ pad + P → phase.px i j = phase'.px i j) :
    interpPhase phase P pad F = interpPhase phase' P pad F := by
  unfold interpPhase interp
  rw [hr, hr', interpCoords_eq P pad F hF hpad]
  have key : ∀ k < F, ∀ l < F, interpVal false phase (phaseCoord P pad F k) (phaseCoord P pad F l) = interpVal false phase' (phaseCoord P pad F k) (phaseCoord P pad F l) := by
    intro k hk l hl
    have hp : (2 : ℚ) ≤ pad := by exact_mod_cast hpad
    obtain ⟨hx1, hx2⟩ := phaseCoord_range P pad F k hF hk
    obtain ⟨hy1, hy2⟩ := phaseCoord_range P pad F l hF hl
    generalize phaseCoord P pad F k = x at *
    generalize phaseCoord P pad F l = y at *
    have cell : ∀ x : ℚ, (pad : ℚ) ≤ x → x ≤ pad + P → ∃ i : ℕ, pad ≤ i ∧ i ≤ pad + P ∧ i + 1 < P + 2 * pad ∧ (i : ℚ) ≤ x ∧ x < i + 1 ∧ (pad + P < i + 1 → x - i = 0) := by
      intro x h1 h2
      have h0 : 0 ≤ x := by linarith
      have hi1 : pad ≤ ⌊x⌋₊ := Nat.le_floor h1
      have hi2 : ⌊x⌋₊ ≤ pad + P := by
        have : (⌊x⌋₊ : ℚ) ≤ pad + P := le_trans (Nat.floor_le h0) h2
        exact_mod_cast this
      refine ⟨⌊x⌋₊, hi1, hi2, by omega, Nat.floor_le h0, Nat.lt_floor_add_one x, fun h => ?_⟩
      have : ⌊x⌋₊ = pad + P := by omega
      have h3 : (⌊x⌋₊ : ℚ) = pad + P := by rw [this]; push_cast; rfl
      have := Nat.floor_le h0
      linarith
    obtain ⟨i, hi1, hi2, hi3, hi4, hi5, hi6⟩ := cell x hx1 hx2
    obtain ⟨j, hj1, hj2, hj3, hj4, hj5, hj6⟩ := cell y hy1 hy2
    have e1 : ∀ a : Arr2, interpVal false a x y = bilinAt a x y := fun a => rfl
    rw [e1, e1, bilinAt_ok phase x y i j ⟨hi4, hi5⟩ ⟨hj4, hj5⟩ (by omega) (by omega), bilinAt_ok phase' x y i j ⟨hi4, hi5⟩ ⟨hj4, hj5⟩ (by omega) (by omega), heq i j hi1 hi2 hj1 hj2]
    by_cases h1 : i + 1 ≤ pad + P
    · rw [heq (i + 1) j (by omega) h1 hj1 hj2]
      by_cases h2 : j + 1 ≤ pad + P
      · rw [heq i (j + 1) hi1 hi2 (by omega) h2, heq (i + 1) (j + 1) (by omega) h1 (by omega) h2]
      · simp [hj6 (by omega)]
    · by_cases h2 : j + 1 ≤ pad + P
      · rw [heq i (j + 1) hi1 hi2 (by omega) h2]; simp [hi6 (by omega)]
      · simp [hi6 (by omega), hj6 (by omega)]
  have rowEq : ∀ k < F, ((List.range F).map (phaseCoord P pad F)).mapM (fun y => interpVal false phase (phaseCoord P pad F k) y)
      = ((List.range F).map (phaseCoord P pad F)).mapM (fun y => interpVal false phase' (phaseCoord P pad F k) y) := by
    intro k hk
    rw [List.mapM_map, List.mapM_map]
    exact mapM_congr fun l hl => key k hk l (List.mem_range.mp hl)
  rw [List.mapM_map, List.mapM_map]
  exact mapM_congr fun k hk => rowEq k (List.mem_range.mp hk)

/-- **C102 (ramps).** Of a tilted wavefront the camera samples a tilted wavefront: no error, and from one element to the next `P / (F - 1)` times the difference of neighbouring pixels. -/
theorem C102_ramp (phase : Arr2) (P pad F : ℕ) (hF : 2 ≤ F) (hpad : 2 ≤ pad) (hr : phase.rows = P + 2 * pad) (hc : phase.cols = P + 2 * pad) (α β γ : ℚ)
    (hph : ∀ i j : ℕ, i < P + 2 * pad → j < P + 2 * pad → phase.px i j = α + β * i + γ * j) :
    interpPhase phase P pad F = .ok ((List.range F).map fun k : ℕ => (List.range F).map fun l : ℕ =>
      (α + (β + γ) * pad) + β * P / ((F : ℚ) - 1) * k + γ * P / ((F : ℚ) - 1) * l) := by
  unfold interpPhase interp
  rw [hr, interpCoords_eq P pad F hF hpad]
  have hp : (2 : ℚ) ≤ pad := by exact_mod_cast hpad
  have key : ∀ k < F, ∀ l < F, interpVal false phase (phaseCoord P pad F k) (phaseCoord P pad F l)
      = .ok ((α + (β + γ) * pad) + β * P / ((F : ℚ) - 1) * k + γ * P / ((F : ℚ) - 1) * l) := by
    intro k hk l hl
    obtain ⟨hx1, hx2⟩ := phaseCoord_range P pad F k hF hk
    obtain ⟨hy1, hy2⟩ := phaseCoord_range P pad F l hF hl
    rw [C29_exact_on_bilinear false phase α β γ 0 (by intro i j hi hj; rw [hph i j (hr ▸ hi) (hc ▸ hj)]; ring) _ _
      ⟨by linarith, by rw [hr]; push_cast; linarith⟩ ⟨by linarith, by rw [hc]; push_cast; linarith⟩]
    congr 1
    unfold phaseCoord
    ring
  rw [List.mapM_map]
  apply mapM_ok
  intro k hk
  rw [Function.comp_apply, List.mapM_map]
  apply mapM_ok
  intro l hl
  exact key k (List.mem_range.mp hk) l (List.mem_range.mp hl)

/-! ### Plate scale -/

/-- For an even size, `fftshift_2d_inplace` moves by half the size, cyclically. -/
theorem shiftIdx_even (h : ℕ) (j k : ℕ) (hj : j < 2 * h) (hk : k < 2 * h) :
    (∃ c : ℤ, ((shiftIdx (2 * h) (j, k)).1 : ℤ) = j + h + c * (2 * h)) ∧ (∃ c : ℤ, ((shiftIdx (2 * h) (j, k)).2 : ℤ) = k + h + c * (2 * h)) := by
  have e : 2 * h / 2 = h := by omega
  unfold shiftIdx
  rw [e]
  simp only [hj, hk, and_self, if_true]
  constructor
  · by_cases h1 : j < h
    · rw [if_pos h1]; exact ⟨0, by push_cast; ring⟩
    · rw [if_neg h1]; exact ⟨-1, by rw [Nat.cast_sub (by omega)]; push_cast; ring⟩
  · by_cases h1 : k < h
    · rw [if_pos h1]; exact ⟨0, by push_cast; ring⟩
    · rw [if_neg h1]; exact ⟨-1, by rw [Nat.cast_sub (by omega)]; push_cast; ring⟩

/-- A tilt of `s` and `t` FFT elements moves the focal plane. -/
theorem intensity_shift (h n : ℕ) (hh : 0 < h) (e : ℕ → ℕ → ℂ) (s t : ℤ) (p q p' q' : ℕ) (hp : p < 2 * h) (hq : q < 2 * h) (hp' : p' < 2 * h) (hq' : q' < 2 * h)
    (hs : (p' : ℤ) ≡ p + s [ZMOD (2 * h : ℕ)]) (ht : (q' : ℤ) ≡ q + t [ZMOD (2 * h : ℕ)]) :
    intensity (2 * h) n (fun j k => e j k * cis (2 * Real.pi * ((s : ℝ) * j + (t : ℝ) * k) / (2 * h : ℕ))) p' q' = intensity (2 * h) n e p q := by
  set N := 2 * h with hN
  have hN0 : 0 < N := by omega
  have hNr : (N : ℝ) ≠ 0 := by positivity
  set o := (N - n) / 2 with ho
  set g : ℕ → ℕ → ℂ := fun j k => placed N n e (shiftIdx N (j, k)) with hg
  -- the placed field
  have hplaced : ∀ x : ℕ × ℕ, placed N n (fun j k => e j k * cis (2 * Real.pi * ((s : ℝ) * j + (t : ℝ) * k) / N)) x
      = placed N n e x * cis (2 * Real.pi * ((s : ℝ) * ((x.1 : ℝ) - o) + (t : ℝ) * ((x.2 : ℝ) - o)) / N) := by
    intro x
    unfold placed
    simp only [← ho]
    by_cases hx : (o ≤ x.1 ∧ x.1 < o + n) ∧ (o ≤ x.2 ∧ x.2 < o + n)
    · rw [if_pos hx, if_pos hx, Nat.cast_sub hx.1.1, Nat.cast_sub hx.2.1]
    · rw [if_neg hx, if_neg hx, zero_mul]
  -- the shifted, placed field
  have hshift : ∀ j ∈ range N, ∀ k ∈ range N, placed N n (fun j k => e j k * cis (2 * Real.pi * ((s : ℝ) * j + (t : ℝ) * k) / N)) (shiftIdx N (j, k))
      = cis (2 * Real.pi * (((s : ℝ) + t) * ((h : ℝ) - o)) / N) * (g j k * cis (2 * Real.pi * ((s : ℝ) * j + (t : ℝ) * k) / N)) := by
    intro j hj k hk
    rw [hplaced]
    obtain ⟨⟨c, hc⟩, ⟨d, hd⟩⟩ := shiftIdx_even h j k (mem_range.mp hj) (mem_range.mp hk)
    rw [← hN] at hc hd
    have hc' : ((shiftIdx N (j, k)).1 : ℝ) = j + h + c * N := by
      have : (((shiftIdx N (j, k)).1 : ℤ) : ℝ) = ((j + h + c * (2 * h) : ℤ) : ℝ) := by rw [hc]
      rw [hN]; push_cast at this ⊢; exact this
    have hd' : ((shiftIdx N (j, k)).2 : ℝ) = k + h + d * N := by
      have : (((shiftIdx N (j, k)).2 : ℤ) : ℝ) = ((k + h + d * (2 * h) : ℤ) : ℝ) := by rw [hd]
      rw [hN]; push_cast at this ⊢; exact this
    rw [hc', hd', show 2 * Real.pi * ((s : ℝ) * ((j + h + c * N : ℝ) - o) + (t : ℝ) * ((k + h + d * N : ℝ) - o)) / N
        = 2 * Real.pi * (((s : ℝ) + t) * ((h : ℝ) - o)) / N + 2 * Real.pi * ((s : ℝ) * j + (t : ℝ) * k) / N + 2 * Real.pi * ((s * c + t * d : ℤ) : ℝ) by
      push_cast; field_simp; ring, cis_add, cis_add, cis_int, mul_one, hg]
    ring
  have hfocus : ∀ u : ℕ × ℕ, focus N n (fun j k => e j k * cis (2 * Real.pi * ((s : ℝ) * j + (t : ℝ) * k) / N)) u
      = cis (2 * Real.pi * (((s : ℝ) + t) * ((h : ℝ) - o)) / N) * four N N g ((u.1 : ℝ) - s) ((u.2 : ℝ) - t) := by
    intro u
    unfold focus four
    rw [mul_sum]
    refine sum_congr rfl fun j hj => ?_
    rw [mul_sum]
    refine sum_congr rfl fun k hk => ?_
    rw [hshift j hj k hk, show -(2 * Real.pi * (((u.1 : ℝ) - s) * j + ((u.2 : ℝ) - t) * k) / N)
      = 2 * Real.pi * ((s : ℝ) * j + (t : ℝ) * k) / N + -(2 * Real.pi * ((u.1 : ℝ) * j + (u.2 : ℝ) * k) / N) by ring, cis_add]
    ring
  have hfocus0 : ∀ u : ℕ × ℕ, focus N n e u = four N N g u.1 u.2 := fun u => rfl
  obtain ⟨⟨c, hc⟩, ⟨d, hd⟩⟩ := shiftIdx_even h p q hp hq
  obtain ⟨⟨c', hc'⟩, ⟨d', hd'⟩⟩ := shiftIdx_even h p' q' hp' hq'
  obtain ⟨a, ha⟩ := hs.dvd
  obtain ⟨b, hb⟩ := ht.dvd
  rw [← hN] at hc hd hc' hd'
  have e1 : ((shiftIdx N (p', q')).1 : ℝ) - s = (shiftIdx N (p, q)).1 + ((c' - c - a : ℤ) : ℝ) * N := by
    have : ((shiftIdx N (p', q')).1 : ℤ) - s = (shiftIdx N (p, q)).1 + (c' - c - a) * N := by
      rw [hc, hc', hN]; push_cast; rw [hN] at ha; push_cast at ha; linear_combination -ha
    exact_mod_cast this
  have e2 : ((shiftIdx N (p', q')).2 : ℝ) - t = (shiftIdx N (p, q)).2 + ((d' - d - b : ℤ) : ℝ) * N := by
    have : ((shiftIdx N (p', q')).2 : ℤ) - t = (shiftIdx N (p, q)).2 + (d' - d - b) * N := by
      rw [hd, hd', hN]; push_cast; rw [hN] at hb; push_cast at hb; linear_combination -hb
    exact_mod_cast this
  unfold intensity
  rw [hfocus, hfocus0, map_mul, cis_normSq, one_mul, e1, e2, four_period N N hN0]

/-- The waves a camera samples of a tilted wavefront. -/
def tiltRamp (F : ℕ) (c a b : ℚ) : List (List ℚ) := (List.range F).map fun k : ℕ => (List.range F).map fun l : ℕ => c + a * k + b * l

theorem placed_congr (N n : ℕ) (e e' : ℕ → ℕ → ℂ) (h : ∀ j < n, ∀ k < n, e j k = e' j k) : placed N n e = placed N n e' := by
  funext p
  unfold placed
  simp only
  by_cases hx : ((N - n) / 2 ≤ p.1 ∧ p.1 < (N - n) / 2 + n) ∧ ((N - n) / 2 ≤ p.2 ∧ p.2 < (N - n) / 2 + n)
  · rw [if_pos hx, if_pos hx, h _ (by omega) _ (by omega)]
  · rw [if_neg hx, if_neg hx]

theorem intensity_congr (N n : ℕ) (e e' : ℕ → ℕ → ℂ) (h : ∀ j < n, ∀ k < n, e j k = e' j k) (p q : ℕ) : intensity N n e p q = intensity N n e' p q := by
  unfold intensity focus
  rw [placed_congr N n e e' h]

theorem ramp_get (F : ℕ) (c a b : ℚ) (j k : ℕ) (hj : j < F) (hk : k < F) : ((tiltRamp F c a b).getD j []).getD k 0 = c + a * j + b * k := by
  simp [tiltRamp, List.getD, hj, hk]

/-- Image of a ramp whose steps are `s / N` and `t / N` waves. -/
theorem pic_ramp (h F : ℕ) (hh : 0 < h) (m : ℕ → ℕ → ℝ) (c a b : ℚ) (s t : ℤ) (hs : a * (2 * h : ℕ) = s) (ht : b * (2 * h : ℕ) = t) (p q p' q' : ℕ)
    (hp : p < 2 * h) (hq : q < 2 * h) (hp' : p' < 2 * h) (hq' : q' < 2 * h)
    (h1 : (p' : ℤ) ≡ p + s [ZMOD (2 * h : ℕ)]) (h2 : (q' : ℤ) ≡ q + t [ZMOD (2 * h : ℕ)]) :
    pic (2 * h) F m (tiltRamp F c a b) p' q' = pic (2 * h) F m (tiltRamp F 0 0 0) p q := by
  have hN : ((2 * h : ℕ) : ℝ) ≠ 0 := by positivity
  have hs' : (a : ℝ) = s / (2 * h : ℕ) := by
    rw [eq_div_iff hN]; exact_mod_cast hs
  have ht' : (b : ℝ) = t / (2 * h : ℕ) := by
    rw [eq_div_iff hN]; exact_mod_cast ht
  unfold pic
  rw [intensity_congr (2 * h) F (field m fun j k => 2 * Real.pi * ((((tiltRamp F c a b).getD j []).getD k 0 : ℚ) : ℝ))
    (fun j k => (field m (fun j k => 2 * Real.pi * ((((tiltRamp F 0 0 0).getD j []).getD k 0 : ℚ) : ℝ)) j k * cis (2 * Real.pi * c)) * cis (2 * Real.pi * ((s : ℝ) * j + (t : ℝ) * k) / (2 * h : ℕ)))]
  · rw [intensity_shift h F hh _ s t p q p' q' hp hq hp' hq' h1 h2]
    unfold intensity
    have : focus (2 * h) F (fun j k => field m (fun j k => 2 * Real.pi * ((((tiltRamp F 0 0 0).getD j []).getD k 0 : ℚ) : ℝ)) j k * cis (2 * Real.pi * c)) (shiftIdx (2 * h) (p, q))
        = cis (2 * Real.pi * c) * focus (2 * h) F (field m (fun j k => 2 * Real.pi * ((((tiltRamp F 0 0 0).getD j []).getD k 0 : ℚ) : ℝ))) (shiftIdx (2 * h) (p, q)) := by
      unfold focus
      simp only [mul_sum]
      refine sum_congr rfl fun j _ => sum_congr rfl fun k _ => ?_
      unfold placed
      simp only
      split_ifs
      · ring
      · ring
    rw [this, map_mul, cis_normSq, one_mul]
  · intro j hj k hk
    unfold field
    beta_reduce
    rw [ramp_get F c a b j k hj hk, ramp_get F 0 0 0 j k hj hk]
    push_cast
    rw [show 2 * Real.pi * ((c : ℝ) + a * j + b * k) = 2 * Real.pi * c + 2 * Real.pi * ((s : ℝ) * j + (t : ℝ) * k) / (2 * (h : ℝ)) by
      rw [hs', ht']; push_cast; ring, cis_add, show 2 * Real.pi * ((0 : ℝ) + 0 * j + 0 * k) = 2 * Real.pi * (0 : ℤ) by push_cast; ring, cis_int]
    push_cast
    ring

/-- **C102 (plate scale).** A wavefront tilted by `w` and `v` waves over the telescope moves the image by exactly `w N / (F - 1)` and `v N / (F - 1)` elements, if these are whole numbers, for every mask and piston. The configured field of view makes `w N / F`. -/
theorem C102_plate_partial (phase : Arr2) (P pad F h : ℕ) (hP : 0 < P) (hF : 2 ≤ F) (hh : 0 < h) (hpad : 2 ≤ pad) (hr : phase.rows = P + 2 * pad) (hc : phase.cols = P + 2 * pad) (α w v : ℚ)
    (hph : ∀ i j : ℕ, i < P + 2 * pad → j < P + 2 * pad → phase.px i j = α + w / P * i + v / P * j) (m : ℕ → ℕ → ℝ) (s t : ℤ)
    (hs : w * (2 * h : ℕ) = s * ((F : ℚ) - 1)) (ht : v * (2 * h : ℕ) = t * ((F : ℚ) - 1)) :
    ∃ waves, interpPhase phase P pad F = .ok waves ∧ ∀ p q p' q' : ℕ, p < 2 * h → q < 2 * h → p' < 2 * h → q' < 2 * h →
      (p' : ℤ) ≡ p + s [ZMOD (2 * h : ℕ)] → (q' : ℤ) ≡ q + t [ZMOD (2 * h : ℕ)] →
      pic (2 * h) F m waves p' q' = pic (2 * h) F m (tiltRamp F 0 0 0) p q := by
  refine ⟨_, C102_ramp phase P pad F hF hpad hr hc α (w / P) (v / P) hph, ?_⟩
  intro p q p' q' hp hq hp' hq' h1 h2
  have hF1 : (F : ℚ) - 1 ≠ 0 := by
    have : (2 : ℚ) ≤ F := by exact_mod_cast hF
    intro h; linarith
  have hP' : (P : ℚ) ≠ 0 := by positivity
  refine pic_ramp h F hh m _ (w / P * P / ((F : ℚ) - 1)) (v / P * P / ((F : ℚ) - 1)) s t ?_ ?_ p q p' q' hp hq hp' hq' h1 h2
  · rw [div_mul_cancel₀ _ hP', div_mul_eq_mul_div, hs, mul_div_assoc, div_self hF1, mul_one]
  · rw [div_mul_cancel₀ _ hP', div_mul_eq_mul_div, ht, mul_div_assoc, div_self hF1, mul_one]

/-- **C102 (detector).** On the detector: a tilt of `w` waves with `w N = a b (F - 1)` moves the image by `a` pixels, `b` being `fftOversamp`, as long as it stays on the FFT. -/
theorem C102_detector_partial (phase : Arr2) (P pad F h : ℕ) (hP : 0 < P) (hF : 2 ≤ F) (hh : 0 < h) (hpad : 2 ≤ pad) (hr : phase.rows = P + 2 * pad) (hc : phase.cols = P + 2 * pad) (α w : ℚ)
    (hph : ∀ i j : ℕ, i < P + 2 * pad → j < P + 2 * pad → phase.px i j = α + w / P * i + 0 / P * j) (m : ℕ → ℕ → ℝ) (a b crop : ℕ)
    (hs : w * (2 * h : ℕ) = (a * b : ℕ) * ((F : ℚ) - 1)) :
    ∃ waves, interpPhase phase P pad F = .ok waves ∧ ∀ i j : ℕ, (i + a + 1) * b + crop ≤ 2 * h → (j + 1) * b + crop ≤ 2 * h →
      detector (2 * h) F crop b m waves (i + a) j = detector (2 * h) F crop b m (tiltRamp F 0 0 0) i j := by
  obtain ⟨waves, hw, key⟩ := C102_plate_partial phase P pad F h hP hF hh hpad hr hc α w 0 hph m (a * b : ℕ) 0 (by rw [hs]; push_cast; ring) (by simp)
  refine ⟨waves, hw, fun i j hi hj => ?_⟩
  unfold detector Psf.raw binned Psf.cropped
  refine sum_congr rfl fun x hx => sum_congr rfl fun y hy => ?_
  have hx' := mem_range.mp hx
  have hy' := mem_range.mp hy
  have e1 : (i + a + 1) * b = i * b + a * b + b := by ring
  have e2 : (j + 1) * b = j * b + b := by ring
  have e3 : (i + a) * b = i * b + a * b := by ring
  refine key (x + i * b + crop) (y + j * b + crop) (x + (i + a) * b + crop) (y + j * b + crop) (by omega) (by omega) (by omega) (by omega) ?_ (by simp)
  rw [e3]; push_cast
  exact congrArg (fun z : ℤ => z % _) (by ring)

/-- What the property asks of the plate scale: a tilt of `w` waves over the telescope moves the image by `w N / F` elements. -/
def C102_Plate : Prop := ∀ (phase : Arr2) (P pad F h : ℕ) (α w : ℚ) (m : ℕ → ℕ → ℝ) (s : ℤ) (waves : List (List ℚ)), 0 < P → 2 ≤ F → 0 < h → 2 ≤ pad → phase.rows = P + 2 * pad → phase.cols = P + 2 * pad →
  (∀ i j : ℕ, i < P + 2 * pad → j < P + 2 * pad → phase.px i j = α + w / P * i) → w * (2 * h : ℕ) = s * (F : ℚ) → interpPhase phase P pad F = .ok waves →
  ∀ p q p' : ℕ, p < 2 * h → q < 2 * h → p' < 2 * h → (p' : ℤ) ≡ p + s [ZMOD (2 * h : ℕ)] → pic (2 * h) F m waves p' q = pic (2 * h) F m (tiltRamp F 0 0 0) p q

/-- And of the pixels outside the pupil: they do not matter. -/
def C102_Outside : Prop := ∀ (phase phase' : Arr2) (P pad F h : ℕ) (m : ℕ → ℕ → ℝ) (waves waves' : List (List ℚ)), 0 < P → 2 ≤ F → 0 < h → 2 ≤ pad → phase.rows = P + 2 * pad → phase.cols = P + 2 * pad →
  phase'.rows = P + 2 * pad → phase'.cols = P + 2 * pad → (∀ i j : ℕ, pad ≤ i → i < pad + P → pad ≤ j → j < pad + P → phase.px i j = phase'.px i j) →
  interpPhase phase P pad F = .ok waves → interpPhase phase' P pad F = .ok waves' → ∀ p q : ℕ, pic (2 * h) F m waves p q = pic (2 * h) F m waves' p q

/-- A tilt of half a wave over a telescope of four pixels, a camera of three elements in an FFT of four: the image moves by one element. -/
example : ∃ waves, interpPhase ⟨8, 8, fun i _ => 1 / 2 / 4 * i⟩ 4 2 3 = .ok waves ∧ pic (2 * 2) 3 (fun _ _ => 1) waves 3 2 = pic (2 * 2) 3 (fun _ _ => 1) (tiltRamp 3 0 0 0) 2 2 := by
  obtain ⟨waves, h1, h2⟩ := C102_plate_partial ⟨8, 8, fun i _ => 1 / 2 / 4 * i⟩ 4 2 3 2 (by norm_num) (by norm_num) (by norm_num) (by norm_num) rfl rfl 0 (1 / 2) 0 (by intro i j _ _; push_cast; ring) (fun _ _ => 1) 1 0 (by norm_num) (by norm_num)
  exact ⟨waves, h1, h2 2 2 3 2 (by norm_num) (by norm_num) (by norm_num) (by norm_num) (by decide) (by decide)⟩

/-- The same on a detector with two FFT elements per pixel: a tilt of one wave, one pixel. -/
example : ∃ waves, interpPhase ⟨8, 8, fun i _ => 1 / 4 * i⟩ 4 2 3 = .ok waves ∧ detector (2 * 2) 3 0 2 (fun _ _ => 1) waves 1 0 = detector (2 * 2) 3 0 2 (fun _ _ => 1) (tiltRamp 3 0 0 0) 0 0 := by
  obtain ⟨waves, h1, h2⟩ := C102_detector_partial ⟨8, 8, fun i _ => 1 / 4 * i⟩ 4 2 3 2 (by norm_num) (by norm_num) (by norm_num) (by norm_num) rfl rfl 0 1 (by intro i j _ _; push_cast; ring) (fun _ _ => 1) 1 2 0 (by norm_num)
  exact ⟨waves, h1, h2 0 0 (by norm_num) (by norm_num)⟩

/-- Coordinates of phase and mask for four pixels and three elements. -/
example : interpCoords 4 2 8 3 = [2, 4, 6] ∧ (List.range 3).map (maskCoord 4 2 3) = [2, 7 / 2, 5] := by decide +kernel

/-- Phase two pixels outside the pupil has no effect. -/
example : interpPhase ⟨8, 8, fun i j => if i = 7 then 5 else i * j⟩ 4 2 3 = interpPhase ⟨8, 8, fun i j => i * j⟩ 4 2 3 :=
  C102_local _ _ 4 2 3 (by norm_num) (by norm_num) rfl rfl rfl rfl (by intro i j _ _ _ _; simp; omega)

theorem cis_pi : cis Real.pi = -1 := by rw [cis, Complex.exp_pi_mul_I]

theorem cis_neg_pi : cis (-Real.pi) = -1 := by
  rw [← cis_conj, cis_pi]; simp

/-- An image of 2 × 2 elements. -/
theorem pic_two (w : List (List ℚ)) (a : ℝ) (hw : ∀ k < 2, ((w.getD 0 []).getD k 0 : ℚ) = 0) (hw' : ∀ k < 2, (2 * Real.pi * (((w.getD 1 []).getD k 0 : ℚ) : ℝ)) = a) :
    pic (2 * 1) 2 (fun _ _ => 1) w 1 1 = Complex.normSq (2 + 2 * cis a) ∧ pic (2 * 1) 2 (fun _ _ => 1) w 0 1 = Complex.normSq (2 * cis a - 2) := by
  have h0 := hw 0 (by norm_num)
  have h1 := hw 1 (by norm_num)
  have h2 := hw' 0 (by norm_num)
  have h3 := hw' 1 (by norm_num)
  have hc : cis 0 = 1 := by simp [cis]
  have hp1 : -(2 * Real.pi * (1 : ℝ) / 2) = -Real.pi := by ring
  have e1 : shiftIdx (2 * 1) (1, 1) = (0, 0) := by decide
  have e2 : shiftIdx (2 * 1) (0, 1) = (1, 0) := by decide
  have e3 : shiftIdx (2 * 1) (0, 0) = (1, 1) := by decide
  have e4 : shiftIdx (2 * 1) (1, 0) = (0, 1) := by decide
  constructor
  · unfold pic intensity focus
    congr 1
    rw [e1]
    simp only [show 2 * 1 = 2 from rfl, sum_range_succ, sum_range_zero, zero_add] at *
    simp only [e1, e2, e3, e4, placed, field, h0, h1, h2, h3]
    norm_num [hc, h0, h1, h2, h3]
    ring
  · unfold pic intensity focus
    congr 1
    rw [e2]
    simp only [show 2 * 1 = 2 from rfl, sum_range_succ, sum_range_zero, zero_add] at *
    simp only [e1, e2, e3, e4, placed, field, h0, h1, h2, h3]
    norm_num [hc, h0, h1, h2, h3, cis_neg_pi]
    ring

/-- **C102 is violated**, in both respects: a tilt of one wave over the telescope leaves the image of a camera with two elements where it was instead of moving it by one element; and phase in the row after the pupil puts out the middle of an image. -/
theorem C102_violated : ¬ C102_Plate ∧ ¬ C102_Outside := by
  constructor
  · intro h
    have := h ⟨6, 6, fun i _ => -1 + i / 2⟩ 2 2 2 1 (-1) 1 (fun _ _ => 1) 1 [[0, 0], [1, 1]] (by norm_num) (by norm_num) (by norm_num) (by norm_num) rfl rfl (by intro i j _ _; push_cast; ring) (by norm_num)
      (by decide +kernel) 1 1 0 (by norm_num) (by norm_num) (by norm_num) (by decide)
    rw [(pic_two _ (2 * Real.pi * ((1 : ℤ) : ℝ)) (by intro k hk; interval_cases k <;> rfl) (by intro k hk; interval_cases k <;> simp [List.getD])).2,
      (pic_two _ 0 (by intro k hk; interval_cases k <;> simp [tiltRamp, List.getD, List.range_succ]) (by intro k hk; interval_cases k <;> simp [tiltRamp, List.getD, List.range_succ])).1, cis_int] at this
    norm_num [cis] at this
  · intro h
    have := h ⟨6, 6, fun i _ => if i = 4 then 1 / 2 else 0⟩ ⟨6, 6, fun _ _ => 0⟩ 2 2 2 1 (fun _ _ => 1) [[0, 0], [1 / 2, 1 / 2]] [[0, 0], [0, 0]] (by norm_num) (by norm_num) (by norm_num) (by norm_num) rfl rfl rfl rfl
      (by intro i j h1 h2 _ _; simp; omega) (by decide +kernel) (by decide +kernel) 1 1
    rw [(pic_two _ Real.pi (by intro k hk; interval_cases k <;> rfl) (by intro k hk; interval_cases k <;> (simp [List.getD]; ring))).1,
      (pic_two _ 0 (by intro k hk; interval_cases k <;> rfl) (by intro k hk; interval_cases k <;> simp [List.getD])).1, cis_pi] at this
    norm_num [cis] at this

end Soapy.Props
