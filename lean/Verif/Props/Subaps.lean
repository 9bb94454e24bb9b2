/-
Property theorems C40, C43, C44: sub-apertures in the pupil and on the detector, FFT padding.
-/
import Verif.Model.Subaps
import Verif.Lemmas.Py
import Mathlib.Tactic.Linarith
import Mathlib.Algebra.BigOperators.Intervals
import Mathlib.Tactic.Positivity

namespace Soapy.Props

open Soapy.Mirror Soapy.Subaps

/-! ### C40 -/

theorem bound_zero (rows nx : ℕ) : bound rows nx 0 = 0 := by
  have : pyRound ((0 : ℕ) * ((rows : ℚ) / nx)) = 0 := by simpa using pyRound_int 0
  unfold bound
  rw [this]; rfl

theorem bound_last (rows nx : ℕ) (h : 1 ≤ nx) : bound rows nx nx = rows := by
  unfold bound
  have hq : (nx : ℚ) ≠ 0 := by positivity
  rw [mul_div_cancel₀ _ hq]
  have := pyRound_int rows
  push_cast at this
  rw [this]; simp

theorem bound_mono (rows nx : ℕ) {a b : ℕ} (h : a ≤ b) : bound rows nx a ≤ bound rows nx b := by
  unfold bound
  apply Int.toNat_le_toNat
  apply pyRound_mono
  apply mul_le_mul_of_nonneg_right _ (by positivity)
  exact_mod_cast h

/-- **C40 (tiling).** The boundaries are shared: for every mask size and number of sub-apertures each mask pixel lies in exactly one row (column) of sub-apertures. -/
theorem C40_tiling (rows nx : ℕ) (h : 1 ≤ nx) (r : ℕ) (hr : r < rows) : ∃! x, x < nx ∧ bound rows nx x ≤ r ∧ r < bound rows nx (x + 1) := by
  have ex : ∀ k, r < bound rows nx k → ∃ x < k, bound rows nx x ≤ r ∧ r < bound rows nx (x + 1) := by
    intro k
    induction k with
    | zero => intro h; rw [bound_zero] at h; omega
    | succ k ih =>
      intro h
      by_cases hk : r < bound rows nx k
      · obtain ⟨x, h1, h2⟩ := ih hk
        exact ⟨x, by omega, h2⟩
      · exact ⟨k, by omega, by omega, h⟩
  obtain ⟨x, h1, h2, h3⟩ := ex nx (by rw [bound_last rows nx h]; exact hr)
  refine ⟨x, ⟨h1, h2, h3⟩, ?_⟩
  rintro y ⟨_, h5, h6⟩
  by_contra hne
  rcases Nat.lt_or_gt_of_ne hne with hl | hl
  · have := bound_mono rows nx (show y + 1 ≤ x by omega); omega
  · have := bound_mono rows nx (show x + 1 ≤ y by omega); omega

/-- What the property calls the illumination of a sub-aperture: total transmission and number of the pixels inside its boundaries. -/
def illum (mask : Arr2) (nx x y : ℕ) : ℚ :=
  ∑ i ∈ Finset.Ico (bound mask.rows nx x) (bound mask.rows nx (x + 1)), ∑ j ∈ Finset.Ico (bound mask.cols nx y) (bound mask.cols nx (y + 1)), mask.px i j

def area (mask : Arr2) (nx x y : ℕ) : ℕ :=
  (bound mask.rows nx (x + 1) - bound mask.rows nx x) * (bound mask.cols nx (y + 1) - bound mask.cols nx y)

theorem subMean_eq (mask : Arr2) (nx x y : ℕ) :
    subMean mask nx x y = if area mask nx x y = 0 then none else some (illum mask nx x y / area mask nx x y) := by
  unfold subMean illum area
  dsimp only
  split_ifs with h
  · rfl
  · rw [Finset.sum_Ico_eq_sum_range]
    simp only [Finset.sum_Ico_eq_sum_range]

/-- **C40 (active).** A sub-aperture is used exactly if it contains mask pixels and their mean reaches the threshold; sub-apertures are numbered by `x`, then `y`, each once. -/
theorem C40_active_iff (mask : Arr2) (nx : ℕ) (th : ℚ) (x y : ℕ) :
    ((x, y) ∈ activeList mask nx th ↔ x < nx ∧ y < nx ∧ 0 < area mask nx x y ∧ th * area mask nx x y ≤ illum mask nx x y) ∧
    (activeList mask nx th).Pairwise (fun s t => s.1 < t.1 ∨ s.1 = t.1 ∧ s.2 < t.2) := by
  constructor
  · have hact : active mask nx th x y = true ↔ 0 < area mask nx x y ∧ th * area mask nx x y ≤ illum mask nx x y := by
      unfold active
      rw [subMean_eq]
      by_cases h : area mask nx x y = 0
      · rw [if_pos h]; simp [h]
      · rw [if_neg h]
        have hp : 0 < area mask nx x y := by omega
        have hq : (0 : ℚ) < area mask nx x y := by exact_mod_cast hp
        simp only [decide_eq_true_eq, hp, true_and]
        rw [le_div_iff₀ hq]
    unfold activeList
    simp only [List.mem_flatMap, List.mem_range, List.mem_map, List.mem_filter, Prod.mk.injEq]
    constructor
    · rintro ⟨a, ha, b, ⟨hb, hc⟩, rfl, rfl⟩
      obtain ⟨h1, h2⟩ := hact.mp hc
      exact ⟨ha, hb, h1, h2⟩
    · rintro ⟨ha, hb, h1, h2⟩
      exact ⟨x, ha, y, ⟨hb, hact.mpr ⟨h1, h2⟩⟩, rfl, rfl⟩
  · unfold activeList
    rw [List.pairwise_flatMap]
    constructor
    · intro a _
      rw [List.pairwise_map]
      apply List.Pairwise.imp (R := fun a b => a < b)
      · intro b c h; exact Or.inr ⟨rfl, h⟩
      · exact List.Pairwise.filter _ List.pairwise_lt_range
    · apply List.Pairwise.imp (R := fun a b => a < b) _ List.pairwise_lt_range
      intro a b hab s hs t ht
      obtain ⟨_, _, rfl⟩ := List.mem_map.mp hs
      obtain ⟨_, _, rfl⟩ := List.mem_map.mp ht
      exact Or.inl hab

/-- **C40 (nothing lost).** Over all sub-apertures the pupil transmission adds up to that of the whole mask. -/
theorem C40_total (mask : Arr2) (nx : ℕ) (h : 1 ≤ nx) :
    ∑ x ∈ Finset.range nx, ∑ y ∈ Finset.range nx, illum mask nx x y = mask.total := by
  have step : ∀ (rows : ℕ) (f : ℕ → ℚ) (k : ℕ), ∑ x ∈ Finset.range k, ∑ i ∈ Finset.Ico (bound rows nx x) (bound rows nx (x + 1)), f i =
      ∑ i ∈ Finset.range (bound rows nx k), f i := by
    intro rows f k
    induction k with
    | zero => simp [bound_zero]
    | succ k ih =>
      rw [Finset.sum_range_succ, ih, Finset.range_eq_Ico, Finset.range_eq_Ico, Finset.sum_Ico_consecutive f (Nat.zero_le _) (bound_mono rows nx (Nat.le_succ k))]
  unfold illum Arr2.total
  have e : ∀ x, ∑ y ∈ Finset.range nx, ∑ i ∈ Finset.Ico (bound mask.rows nx x) (bound mask.rows nx (x + 1)),
      ∑ j ∈ Finset.Ico (bound mask.cols nx y) (bound mask.cols nx (y + 1)), mask.px i j =
      ∑ i ∈ Finset.Ico (bound mask.rows nx x) (bound mask.rows nx (x + 1)), ∑ j ∈ Finset.range mask.cols, mask.px i j := by
    intro x
    rw [Finset.sum_comm]
    apply Finset.sum_congr rfl
    intro i _
    rw [step, bound_last mask.cols nx h]
  simp only [e]
  rw [step mask.rows _ nx, bound_last mask.rows nx h]

/-- **C40 (fill factors).** One fill factor per active sub-aperture, in the same order: the mean illumination inside its boundaries. -/
theorem C40_fills (mask : Arr2) (nx : ℕ) (th : ℚ) : fills mask nx th = (activeList mask nx th).map fun s => illum mask nx s.1 s.2 / area mask nx s.1 s.2 := by
  unfold fills
  apply List.map_congr_left
  rintro ⟨x, y⟩ hs
  have h := ((C40_active_iff mask nx th x y).1.mp hs).2.2.1
  rw [subMean_eq, if_neg (by dsimp only; omega), Option.getD_some]

/-- A 6 × 6 mask without its upper left corner. -/
def toyMask : Arr2 := ⟨6, 6, fun i j => if i < 3 ∧ j < 3 then 0 else 1⟩

example : activeList toyMask 2 (1 / 2) = [(0, 1), (1, 0), (1, 1)] ∧ activeList toyMask 3 (1 / 2) = [(0, 1), (0, 2), (1, 0), (1, 1), (1, 2), (2, 0), (2, 1), (2, 2)] ∧
    fills toyMask 3 (1 / 2) = [1 / 2, 1, 1 / 2, 3 / 4, 1, 1, 1, 1] := by decide +kernel

/-- **C40 (optics, partial: whole number of pupil pixels per sub-aperture).** If the pupil divides evenly and the padding does not fall on half a pixel of the field
plane, the pieces of the field given to neighbouring sub-apertures are adjacent: no gap, no overlap.  Missing: other sizes, see `C40_optics_violated`. -/
theorem C40_optics_partial (q nx pad n x : ℕ) (hnx : 1 ≤ nx) (hq : 1 ≤ q) (hpad : Int.fract ((pad : ℚ) * n / q) ≠ 1 / 2) :
    interpCoord (q * nx) nx pad n (x + 1) = interpCoord (q * nx) nx pad n x + n ∧ interpCoord (q * nx) nx pad n x = x * n + pyRound ((pad : ℚ) * n / q) := by
  have hn0 : (nx : ℚ) ≠ 0 := by positivity
  have hq0 : (q : ℚ) ≠ 0 := by positivity
  have sp : (((q * nx : ℕ) : ℚ) / nx) = q := by push_cast; field_simp
  have pc : ∀ k : ℕ, pupilCoord (q * nx) nx k = k * q := by
    intro k
    unfold pupilCoord
    rw [sp, pyInt_nonneg (by positivity)]
    have : (k : ℚ) * q = ((k * q : ℤ) : ℚ) := by push_cast; rfl
    rw [this, Int.floor_intCast]
  have rnd : ∀ (c : ℚ) (z : ℤ), Int.fract c ≠ 1 / 2 → pyRound (z + c) = z + pyRound c := by
    intro c z hc
    unfold pyRound
    have hf : ⌊(z : ℚ) + c⌋ = z + ⌊c⌋ := by rw [Int.floor_intCast_add]
    simp only [hf]
    have e : (z : ℚ) + c - ((z + ⌊c⌋ : ℤ) : ℚ) = c - ⌊c⌋ := by push_cast; ring
    rw [e]
    have hc' : c - ⌊c⌋ ≠ 1 / 2 := hc
    by_cases h1 : c - (⌊c⌋ : ℚ) < 1 / 2
    · rw [if_pos h1, if_pos h1]
    · have h2 : 1 / 2 < c - (⌊c⌋ : ℚ) := lt_of_le_of_ne (not_lt.mp h1) (Ne.symm hc')
      rw [if_neg h1, if_neg h1, if_pos h2, if_pos h2, add_assoc]
  have main : ∀ k : ℕ, interpCoord (q * nx) nx pad n k = k * n + pyRound ((pad : ℚ) * n / q) := by
    intro k
    unfold interpCoord
    rw [pc, sp]
    have : (((k : ℤ) * q + pad : ℤ) : ℚ) * n / q = ((k * n : ℤ) : ℚ) + (pad : ℚ) * n / q := by push_cast; field_simp
    rw [this, rnd _ _ hpad]
  refine ⟨?_, main x⟩
  rw [main, main]; push_cast; ring

example : (List.range 3).map (interpCoord 12 3 2 8) = [4, 12, 20] := by decide +kernel

/-- **C40 (optics, violated).** With 10 pupil pixels for 3 sub-apertures of 10 field pixels, the field pieces start at 0, 9 and 18: neighbours overlap by a pixel and the last pixels of the pupil are
not seen by any sub-aperture, because the corner is truncated instead of rounded. -/
theorem C40_optics_violated : (List.range 3).map (interpCoord 10 3 0 10) = [0, 9, 18] := by decide +kernel

/-! ### C43 -/

theorem pyInt_intCast (z : ℤ) : pyInt (z : ℚ) = z := by unfold pyInt; split_ifs <;> simp

/-- With an even number of padding pixels everything is a whole number. -/
theorem ranges_int (nx p o g x h : ℕ) (ho : o * p = p + 2 * h) (hx : x < nx) :
    detRange nx p o g x = (max ((centCoord p g x : ℤ) - h) 0, min ((centCoord p g x : ℤ) + p + h) (detSize nx p g)) ∧
    subRange nx p o g x = (max ((h : ℤ) - centCoord p g x) 0,
      if (detSize nx p g : ℤ) < (centCoord p g x : ℤ) + p + h then (detSize nx p g : ℤ) - ((centCoord p g x : ℤ) + p + h) else (o * p : ℕ)) := by
  have hod : ((o : ℚ) * p - p) / 2 = h := by
    have : (o : ℚ) * p = p + 2 * h := by exact_mod_cast ho
    linarith
  have d1 : (axisCoords nx p o g x).1 = (((centCoord p g x : ℤ) - h : ℤ) : ℚ) := by
    unfold axisCoords centCoord; dsimp only; rw [hod]; push_cast; ring
  have d2 : (axisCoords nx p o g x).2.1 = (((centCoord p g x : ℤ) + p + h : ℤ) : ℚ) := by
    unfold axisCoords centCoord; dsimp only; rw [hod]; push_cast; ring
  have s1 : (axisCoords nx p o g x).2.2.1 = ((max ((h : ℤ) - centCoord p g x) 0 : ℤ) : ℚ) := by
    have : (axisCoords nx p o g x).2.2.1 = if (axisCoords nx p o g x).1 < 0 then -(axisCoords nx p o g x).1 else 0 := rfl
    rw [this, d1]
    by_cases c : ((centCoord p g x : ℤ) - h : ℤ) < 0
    · rw [if_pos (by exact_mod_cast c), max_eq_left (by omega)]; push_cast; ring
    · rw [if_neg (by exact_mod_cast c), max_eq_right (by omega)]; simp
  have s2 : (axisCoords nx p o g x).2.2.2 = (((if (detSize nx p g : ℤ) < (centCoord p g x : ℤ) + p + h then (detSize nx p g : ℤ) - ((centCoord p g x : ℤ) + p + h) else (o * p : ℕ) : ℤ)) : ℚ) := by
    have : (axisCoords nx p o g x).2.2.2 = if (detSize nx p g : ℚ) < (axisCoords nx p o g x).2.1 then -((axisCoords nx p o g x).2.1 - detSize nx p g) else (o : ℚ) * p := rfl
    rw [this, d2]
    by_cases c : (detSize nx p g : ℤ) < (centCoord p g x : ℤ) + p + h
    · rw [if_pos (by exact_mod_cast c), if_pos c]; push_cast; ring
    · rw [if_neg (by exact_mod_cast c), if_neg c]; push_cast; ring
  have hle : (centCoord p g x : ℤ) + p ≤ detSize nx p g := by
    have : (x + 1) * p ≤ nx * p := Nat.mul_le_mul_right _ hx
    have h2 : (x + 1) * g ≤ nx * g := Nat.mul_le_mul_right _ hx
    unfold centCoord detSize
    push_cast
    have a1 : ((x : ℤ) + 1) * p ≤ nx * p := by exact_mod_cast this
    have a2 : ((x : ℤ) + 1) * g ≤ nx * g := by exact_mod_cast h2
    have a3 : (0 : ℤ) ≤ g := by positivity
    nlinarith
  constructor
  · unfold detRange
    dsimp only
    rw [d1, d2]
    refine Prod.ext ?_ ?_
    · dsimp only
      have : min (max (((((centCoord p g x : ℤ) - h : ℤ)) : ℚ)) 0) (detSize nx p g) = ((max ((centCoord p g x : ℤ) - h) 0 : ℤ) : ℚ) := by
        rw [min_eq_left]
        · push_cast; rfl
        · have : max ((centCoord p g x : ℤ) - h) 0 ≤ (detSize nx p g : ℤ) := by omega
          exact_mod_cast this
      rw [this, pyInt_intCast]
    · dsimp only
      have : min (max (((((centCoord p g x : ℤ) + p + h : ℤ)) : ℚ)) 0) (detSize nx p g) = ((min ((centCoord p g x : ℤ) + p + h) (detSize nx p g) : ℤ) : ℚ) := by
        rw [max_eq_left (by positivity)]
        push_cast; rfl
      rw [this, pyInt_intCast]
  · unfold subRange
    dsimp only
    rw [s1, s2, pyInt_intCast, pyInt_intCast]

theorem cent_le (nx p g x : ℕ) (hx : x < nx) : centCoord p g x + p + g ≤ detSize nx p g := by
  have h1 : (x + 1) * p ≤ nx * p := Nat.mul_le_mul_right _ hx
  have h2 : (x + 1) * g ≤ nx * g := Nat.mul_le_mul_right _ hx
  unfold centCoord detSize
  nlinarith

/-- **C43 (sizes, partial: whole-pixel padding; see `C43_odd_fails` for the rest).** Whenever the oversize padding is a whole number of pixels (always with a field stop, otherwise for even pixel counts), the place on the detector and the part of the
image put there have the same size on every axis, lie inside detector and image, and correspond: detector pixel `r` receives image pixel `r + pad - (start of the sub-aperture)`. -/
theorem C43_sizes_partial (nx p o g x h : ℕ) (ho : o * p = p + 2 * h) (hp : 1 ≤ p) (hx : x < nx) :
    let N := detSize nx p g
    let S := o * p
    let d := detRange nx p o g x
    let s := subRange nx p o g x
    sliceLen N d.1 d.2 = sliceLen S s.1 s.2 ∧ sliceBound N d.1 + sliceLen N d.1 d.2 ≤ N ∧ sliceBound S s.1 + sliceLen S s.1 s.2 ≤ S ∧
    sliceBound N d.1 + h = sliceBound S s.1 + centCoord p g x ∧
    sliceBound N d.1 ≤ centCoord p g x ∧ centCoord p g x + p ≤ sliceBound N d.1 + sliceLen N d.1 d.2 := by
  have hc := cent_le nx p g x hx
  obtain ⟨e1, e2⟩ := ranges_int nx p o g x h ho hx
  dsimp only
  rw [e1, e2]
  dsimp only
  generalize hN : detSize nx p g = N at *
  generalize hC : centCoord p g x = c at *
  generalize hS : o * p = S at *
  unfold sliceLen sliceBound
  by_cases c1 : (N : ℤ) < (c : ℤ) + p + h
  · rw [if_pos c1]
    rw [if_neg (show ¬ max ((c : ℤ) - h) 0 < 0 by omega), if_neg (show ¬ min ((c : ℤ) + p + h) N < 0 by omega),
      if_neg (show ¬ max ((h : ℤ) - c) 0 < 0 by omega), if_pos (show (N : ℤ) - (c + p + h) < 0 by omega)]
    omega
  · rw [if_neg c1]
    rw [if_neg (show ¬ max ((c : ℤ) - h) 0 < 0 by omega), if_neg (show ¬ min ((c : ℤ) + p + h) N < 0 by omega),
      if_neg (show ¬ max ((h : ℤ) - c) 0 < 0 by omega), if_neg (show ¬ ((S : ℕ) : ℤ) < 0 by omega)]
    omega

section

variable {K : Type} [AddCommMonoid K]

/-- Contribution of sub-aperture `s` with image `img` to detector pixel `(r, c)`. -/
def contribution (p o g h : ℕ) (s : ℕ × ℕ) (img : ℕ → ℕ → K) (r c : ℕ) : K :=
  if (centCoord p g s.1 ≤ r + h ∧ r + h < centCoord p g s.1 + o * p) ∧ (centCoord p g s.2 ≤ c + h ∧ c + h < centCoord p g s.2 + o * p) then
    img (r + h - centCoord p g s.1) (c + h - centCoord p g s.2) else 0

theorem place_one (nx p o g h : ℕ) (ho : o * p = p + 2 * h) (hp : 1 ≤ p) (s : ℕ × ℕ) (hs : s.1 < nx ∧ s.2 < nx) (det img : ℕ → ℕ → K) :
    ∃ d', placeOne (detSize nx p g) (o * p) det img (detRange nx p o g s.1) (detRange nx p o g s.2) (subRange nx p o g s.1) (subRange nx p o g s.2) = .ok d' ∧
      ∀ r c, d' r c = if r < detSize nx p g ∧ c < detSize nx p g then det r c + contribution p o g h s img r c else det r c := by
  obtain ⟨a1, a2, a3, a4, a5, a6⟩ := C43_sizes_partial nx p o g s.1 h ho hp hs.1
  obtain ⟨b1, b2, b3, b4, b5, b6⟩ := C43_sizes_partial nx p o g s.2 h ho hp hs.2
  obtain ⟨e1, e2⟩ := ranges_int nx p o g s.1 h ho hs.1
  obtain ⟨f1, f2⟩ := ranges_int nx p o g s.2 h ho hs.2
  have hi : ∀ x, x < nx → sliceBound (detSize nx p g) (detRange nx p o g x).1 = centCoord p g x - h ∧
      sliceBound (detSize nx p g) (detRange nx p o g x).1 + sliceLen (detSize nx p g) (detRange nx p o g x).1 (detRange nx p o g x).2 = min (centCoord p g x + p + h) (detSize nx p g) := by
    intro x hx
    have hc := cent_le nx p g x hx
    obtain ⟨e1, _⟩ := ranges_int nx p o g x h ho hx
    rw [e1]
    dsimp only
    unfold sliceLen sliceBound
    rw [if_neg (by omega), if_neg (by omega)]
    omega
  obtain ⟨p1, p2⟩ := hi s.1 hs.1
  obtain ⟨q1, q2⟩ := hi s.2 hs.2
  unfold placeOne
  dsimp only
  unfold bcast
  rw [if_pos a1.symm, if_pos b1.symm]
  refine ⟨_, rfl, ?_⟩
  intro r c
  dsimp only
  rw [p2, q2]
  unfold contribution
  by_cases hin : (centCoord p g s.1 ≤ r + h ∧ r + h < centCoord p g s.1 + o * p) ∧ (centCoord p g s.2 ≤ c + h ∧ c + h < centCoord p g s.2 + o * p)
  · rw [if_pos hin]
    by_cases hb : r < detSize nx p g ∧ c < detSize nx p g
    · rw [if_pos (by omega), if_pos hb]
      congr 2 <;> omega
    · rw [if_neg (by omega), if_neg hb]
  · rw [if_neg hin]
    rw [if_neg (by omega)]
    split_ifs <;> simp

theorem place_cons (nx p o g : ℕ) (det : ℕ → ℕ → K) (s : (ℕ × ℕ) × (ℕ → ℕ → K)) (l : List ((ℕ × ℕ) × (ℕ → ℕ → K))) (d' : ℕ → ℕ → K)
    (h : placeOne (detSize nx p g) (o * p) det s.2 (detRange nx p o g s.1.1) (detRange nx p o g s.1.2) (subRange nx p o g s.1.1) (subRange nx p o g s.1.2) = .ok d') :
    place nx p o g det (s :: l) = place nx p o g d' l := by
  simp only [place]
  generalize placeOne (K := K) _ _ _ _ _ _ _ _ = z at h
  subst h
  rfl

theorem place_cons_error (nx p o g : ℕ) (det : ℕ → ℕ → K) (s : (ℕ × ℕ) × (ℕ → ℕ → K)) (l : List ((ℕ × ℕ) × (ℕ → ℕ → K))) (e : PyErr)
    (h : placeOne (detSize nx p g) (o * p) det s.2 (detRange nx p o g s.1.1) (detRange nx p o g s.1.2) (subRange nx p o g s.1.1) (subRange nx p o g s.1.2) = .error e) :
    place nx p o g det (s :: l) = .error e := by
  simp only [place]
  generalize placeOne (K := K) _ _ _ _ _ _ _ _ = z at h
  subst h
  rfl

/-- **C43 (placing, partial: whole-pixel padding).** Placing never fails (whole-pixel padding) and every detector pixel is the sum of what all sub-apertures put there, each image shifted to its own place. -/
theorem C43_place_partial (nx p o g h : ℕ) (ho : o * p = p + 2 * h) (hp : 1 ≤ p) (l : List ((ℕ × ℕ) × (ℕ → ℕ → K))) (hl : ∀ s ∈ l, s.1.1 < nx ∧ s.1.2 < nx)
    (det : ℕ → ℕ → K) :
    ∃ d', place nx p o g det l = .ok d' ∧
      ∀ r c, r < detSize nx p g → c < detSize nx p g → d' r c = det r c + (l.map fun s => contribution p o g h s.1 s.2 r c).sum := by
  induction l generalizing det with
  | nil => exact ⟨det, rfl, fun r c _ _ => by simp⟩
  | cons a l ih =>
    obtain ⟨d1, e1, v1⟩ := place_one nx p o g h ho hp a.1 (hl a (by simp)) det a.2
    obtain ⟨d2, e2, v2⟩ := ih (fun s hs => hl s (by simp [hs])) d1
    refine ⟨d2, ?_, ?_⟩
    · exact (place_cons nx p o g det a l d1 e1).trans e2
    · intro r c hr hc
      rw [v2 r c hr hc, v1, if_pos ⟨hr, hc⟩, List.map_cons, List.sum_cons, add_assoc]

/-- **C43 (disjoint windows).** The pixels used for centroiding lie on the detector and those of different sub-apertures are disjoint. -/
theorem C43_windows_disjoint (nx p g : ℕ) (s t : ℕ × ℕ) (hs : s.1 < nx ∧ s.2 < nx) (hst : s ≠ t) (i j k l : ℕ) (hi : i < p) (hj : j < p) (hk : k < p) (hl : l < p) :
    (centCoord p g s.1 + i < detSize nx p g ∧ centCoord p g s.2 + j < detSize nx p g) ∧
    (centCoord p g s.1 + i, centCoord p g s.2 + j) ≠ (centCoord p g t.1 + k, centCoord p g t.2 + l) := by
  have c1 := cent_le nx p g s.1 hs.1
  have c2 := cent_le nx p g s.2 hs.2
  refine ⟨⟨by omega, by omega⟩, ?_⟩
  have sep : ∀ a b i k : ℕ, i < p → k < p → centCoord p g a + i = centCoord p g b + k → a = b := by
    intro a b i k hi hk h
    by_contra hne
    unfold centCoord at h
    rcases Nat.lt_or_gt_of_ne hne with hl | hl
    · have h1 : (a + 1) * p ≤ b * p := Nat.mul_le_mul_right _ hl
      have h2 : (a + 1) * g ≤ (b + 1) * g := Nat.mul_le_mul_right _ (by omega)
      nlinarith
    · have h1 : (b + 1) * p ≤ a * p := Nat.mul_le_mul_right _ hl
      have h2 : (b + 1) * g ≤ (a + 1) * g := Nat.mul_le_mul_right _ (by omega)
      nlinarith
  intro h
  injection h with h1 h2
  exact hst (Prod.ext (sep _ _ _ _ hi hk h1) (sep _ _ _ _ hj hl h2))

/-- **C43 (round trip).** With a field stop (no oversize), cutting the detector for centroiding gives back exactly the image of each sub-aperture. -/
theorem C43_roundtrip (nx p g : ℕ) (hp : 1 ≤ p) (l : List ((ℕ × ℕ) × (ℕ → ℕ → K))) (hl : ∀ s ∈ l, s.1.1 < nx ∧ s.1.2 < nx)
    (hn : (l.map Prod.fst).Nodup) (s : (ℕ × ℕ) × (ℕ → ℕ → K)) (hs : s ∈ l) (i j : ℕ) (hi : i < p) (hj : j < p) :
    ∃ d', place nx p 1 g (fun _ _ => 0) l = .ok d' ∧ cut p g d' s.1 i j = s.2 i j := by
  obtain ⟨d', e, v⟩ := C43_place_partial nx p 1 g 0 (by omega) hp l hl (fun _ _ => 0)
  refine ⟨d', e, ?_⟩
  have hb := (C43_windows_disjoint nx p g s.1 (s.1.1 + 1, s.1.2) (hl s hs) (by intro h; have := congrArg Prod.fst h; simp at this) i j i j hi hj hi hj).1
  unfold cut
  rw [v _ _ hb.1 hb.2, zero_add]
  -- only the sub-aperture itself contributes
  have other : ∀ t : (ℕ × ℕ) × (ℕ → ℕ → K), t.1 ≠ s.1 → contribution p 1 g 0 t.1 t.2 (centCoord p g s.1.1 + i) (centCoord p g s.1.2 + j) = 0 := by
    intro t hne
    unfold contribution
    rw [if_neg]
    rintro ⟨⟨h1, h2⟩, h3, h4⟩
    have := (C43_windows_disjoint nx p g s.1 t.1 (hl s hs) hne.symm i j (centCoord p g s.1.1 + i - centCoord p g t.1.1) (centCoord p g s.1.2 + j - centCoord p g t.1.2)
      hi hj (by omega) (by omega)).2
    apply this
    ext <;> dsimp only <;> omega
  have own : contribution p 1 g 0 s.1 s.2 (centCoord p g s.1.1 + i) (centCoord p g s.1.2 + j) = s.2 i j := by
    unfold contribution
    rw [if_pos ⟨⟨by omega, by omega⟩, by omega, by omega⟩]
    rw [show centCoord p g s.1.1 + i + 0 - centCoord p g s.1.1 = i by omega, show centCoord p g s.1.2 + j + 0 - centCoord p g s.1.2 = j by omega]
  clear v e hl hb
  induction l with
  | nil => cases hs
  | cons a l ih =>
    rw [List.map_cons, List.nodup_cons] at hn
    rw [List.map_cons, List.sum_cons]
    rcases List.mem_cons.mp hs with rfl | hs'
    · rw [own]
      have : (l.map fun t => contribution p 1 g 0 t.1 t.2 (centCoord p g s.1.1 + i) (centCoord p g s.1.2 + j)).sum = 0 := by
        apply List.sum_eq_zero
        intro z hz
        obtain ⟨t, ht, rfl⟩ := List.mem_map.mp hz
        apply other
        intro he
        exact hn.1 (by rw [← he]; exact List.mem_map_of_mem ht)
      rw [this, add_zero]
    · rw [ih hn.2 hs', other a, zero_add]
      intro he
      exact hn.1 (by rw [he]; exact List.mem_map_of_mem hs')

end

/-- Two sub-apertures of 2 × 2 pixels side by side, guard pixel between. -/
example : (place 2 2 1 1 (fun _ _ => 0) [((0, 0), fun i j => 10 * i + j + 1), ((0, 1), fun i j => 10 * i + j + 5)]).map
    (fun d => (List.range 7).map (d 1)) = .ok [0, 1, 2, 0, 5, 6, 0] := by decide +kernel

example : (place 2 2 2 0 (fun _ _ => 0) [((0, 0), fun _ j => j + 1), ((0, 1), fun _ j => 10 * j + 10)]).map
    (fun d => (List.range 4).map (d 0)) = .ok [2, 13, 24, 30] := by decide +kernel

/-- **C43 (violated for odd pixel counts).** Without field stop (oversize 2) and with an odd number of pixels per sub-aperture, padding is half-integer and truncation makes the two sizes differ at
the lower edge of the detector: placing raises, unless the guard band is wider than the padding. -/
theorem C43_odd_fails (nx q g y : ℕ) {K : Type} [AddCommMonoid K] (det img : ℕ → ℕ → K) (hg : g ≤ q) (hnx : 2 ≤ nx) :
    place nx (2 * q + 1) 2 g det [((0, y), img)] = .error .valueError := by
  have d1 : (axisCoords nx (2 * q + 1) 2 g 0).1 = ((g : ℤ) - q : ℤ) - 1 / 2 := by
    unfold axisCoords; push_cast; ring
  have d2 : (axisCoords nx (2 * q + 1) 2 g 0).2.1 = ((3 * q + 1 + g : ℤ) : ℚ) + 1 / 2 := by
    unfold axisCoords; push_cast; ring
  have hN : (3 * q + 2 + g) ≤ detSize nx (2 * q + 1) g := by
    have h1 : 2 * (2 * q + 1) ≤ nx * (2 * q + 1) := Nat.mul_le_mul_right _ hnx
    have h2 : 3 * g ≤ (nx + 1) * g := Nat.mul_le_mul_right _ (by omega)
    unfold detSize; omega
  have hNq : ((3 * q + 2 + g : ℕ) : ℚ) ≤ detSize nx (2 * q + 1) g := by exact_mod_cast hN
  push_cast at hNq
  have hgq : (g : ℚ) ≤ q := by exact_mod_cast hg
  have fl : ∀ z : ℤ, 0 ≤ z → pyInt ((z : ℚ) + 1 / 2) = z := by
    intro z hz
    have hz' : (0 : ℚ) ≤ z := by exact_mod_cast hz
    rw [pyInt_nonneg (by linarith), Int.floor_eq_iff]
    constructor <;> linarith
  have r1 : detRange nx (2 * q + 1) 2 g 0 = ((0 : ℤ), (3 * q + 1 + g : ℤ)) := by
    unfold detRange
    dsimp only
    rw [d1, d2]
    refine Prod.ext ?_ ?_
    · dsimp only
      rw [max_eq_right (by push_cast; linarith), min_eq_left (by positivity)]
      exact pyInt_intCast 0
    · dsimp only
      rw [max_eq_left (by push_cast; positivity), min_eq_left (by push_cast; linarith), fl _ (by positivity)]
  have r2 : subRange nx (2 * q + 1) 2 g 0 = ((q : ℤ) - g, (4 * q + 2 : ℤ)) := by
    have s1 : (axisCoords nx (2 * q + 1) 2 g 0).2.2.1 = ((q - g : ℤ) : ℚ) + 1 / 2 := by
      have : (axisCoords nx (2 * q + 1) 2 g 0).2.2.1 = if (axisCoords nx (2 * q + 1) 2 g 0).1 < 0 then -(axisCoords nx (2 * q + 1) 2 g 0).1 else 0 := rfl
      rw [this, d1, if_pos (by push_cast; linarith)]; push_cast; ring
    have s2 : (axisCoords nx (2 * q + 1) 2 g 0).2.2.2 = ((4 * q + 2 : ℤ) : ℚ) := by
      have : (axisCoords nx (2 * q + 1) 2 g 0).2.2.2 = if (detSize nx (2 * q + 1) g : ℚ) < (axisCoords nx (2 * q + 1) 2 g 0).2.1 then
        -((axisCoords nx (2 * q + 1) 2 g 0).2.1 - detSize nx (2 * q + 1) g) else ((2 : ℕ) : ℚ) * ((2 * q + 1 : ℕ) : ℚ) := rfl
      rw [this, d2, if_neg (by push_cast; linarith)]; push_cast; ring
    unfold subRange
    dsimp only
    rw [s1, s2, fl _ (by omega), pyInt_intCast]
  have l1 : sliceLen (detSize nx (2 * q + 1) g) 0 (3 * q + 1 + g) = 3 * q + 1 + g := by
    unfold sliceLen sliceBound
    rw [if_neg (by omega), if_neg (by omega)]; omega
  have l2 : sliceLen (2 * (2 * q + 1)) ((q : ℤ) - g) (4 * q + 2) = 3 * q + 2 + g := by
    unfold sliceLen sliceBound
    rw [if_neg (by omega), if_neg (by omega)]; omega
  have : placeOne (detSize nx (2 * q + 1) g) (2 * (2 * q + 1)) det img (detRange nx (2 * q + 1) 2 g 0) (detRange nx (2 * q + 1) 2 g y)
      (subRange nx (2 * q + 1) 2 g 0) (subRange nx (2 * q + 1) 2 g y) = .error .valueError := by
    unfold placeOne
    dsimp only
    rw [r1, r2]
    dsimp only
    rw [l1, l2]
    have : bcast (3 * q + 2 + g) (3 * q + 1 + g) = none := by
      unfold bcast; rw [if_neg (by omega), if_neg (by omega)]
    rw [this]
  exact place_cons_error nx (2 * q + 1) 2 g det ((0, y), img) [] _ this

/-- **C43 (one pixel).** Where an image is cut down to one pixel while the detector's window is not, no error is raised: numpy spreads that pixel over the whole window. -/
theorem C43_spread {K : Type} [AddCommMonoid K] (n s : ℕ) (det img : ℕ → ℕ → K) (dx dy sx sy : ℤ × ℤ) (h1 : sliceLen s sx.1 sx.2 = 1) (h2 : sliceLen s sy.1 sy.2 = 1) :
    ∃ d', placeOne n s det img dx dy sx sy = .ok d' ∧ ∀ r c, (sliceBound n dx.1 ≤ r ∧ r < sliceBound n dx.1 + sliceLen n dx.1 dx.2) → (sliceBound n dy.1 ≤ c ∧ c < sliceBound n dy.1 + sliceLen n dy.1 dy.2) →
      d' r c = det r c + img (sliceBound s sx.1) (sliceBound s sy.1) := by
  have hb : ∀ m, ∃ f, bcast 1 m = some f ∧ ∀ k < m, f k = 0 := by
    intro m
    unfold bcast
    by_cases h : 1 = m
    · rw [if_pos h]; exact ⟨_, rfl, fun k hk => by omega⟩
    · rw [if_neg h, if_pos rfl]; exact ⟨_, rfl, fun _ _ => rfl⟩
  obtain ⟨f, hf, f0⟩ := hb (sliceLen n dx.1 dx.2)
  obtain ⟨g, hg, g0⟩ := hb (sliceLen n dy.1 dy.2)
  unfold placeOne
  dsimp only
  rw [h1, h2, hf, hg]
  refine ⟨_, rfl, fun r c hr hc => ?_⟩
  simp only [hr, hc, and_self, if_true]
  rw [f0 _ (by omega), g0 _ (by omega), add_zero, add_zero]

example : sliceLen 4 1 2 = 1 ∧ sliceLen 6 2 5 = 3 := by decide

/-! ### C44 -/

/-- **C44.** For at least one pixel the search ends, with the least oversampling factor that is not below the configured one and for which the padded size reaches the field of view; with more patience (`fuel`) the
answer does not change. -/
theorem C44_least (px need f : ℕ) (hp : 1 ≤ px) :
    ∃ r, (∀ fuel, need < fuel → padSearch px need fuel f = some r) ∧ f ≤ r ∧ need ≤ px * r ∧ ∀ r', f ≤ r' → need ≤ px * r' → r ≤ r' := by
  have main : ∀ k f, need ≤ px * f + k → ∃ r, (∀ fuel, k < fuel → padSearch px need fuel f = some r) ∧ f ≤ r ∧ need ≤ px * r ∧
      ∀ r', f ≤ r' → need ≤ px * r' → r ≤ r' := by
    intro k
    induction k with
    | zero =>
      intro f hf
      refine ⟨f, ?_, le_refl _, by omega, fun _ h _ => h⟩
      intro fuel hfu
      obtain ⟨n, rfl⟩ : ∃ n, fuel = n + 1 := ⟨fuel - 1, by omega⟩
      rw [padSearch, if_neg (by omega)]
    | succ k ih =>
      intro f hf
      by_cases c : px * f < need
      · obtain ⟨r, h1, h2, h3, h4⟩ := ih (f + 1) (by rw [Nat.mul_succ]; omega)
        refine ⟨r, ?_, by omega, h3, ?_⟩
        · intro fuel hfu
          obtain ⟨n, rfl⟩ : ∃ n, fuel = n + 1 := ⟨fuel - 1, by omega⟩
          rw [padSearch, if_pos c]
          exact h1 n (by omega)
        · intro r' h5 h6
          apply h4 r' _ h6
          by_contra h7
          have : r' = f := by omega
          subst this
          omega
      · refine ⟨f, ?_, le_refl _, by omega, fun _ h _ => h⟩
        intro fuel hfu
        obtain ⟨n, rfl⟩ : ∃ n, fuel = n + 1 := ⟨fuel - 1, by omega⟩
        rw [padSearch, if_neg c]
  exact main need f (by omega)

example : padSearch 10 35 100 2 = some 4 ∧ padSearch 10 35 100 6 = some 6 := by decide

/-- Without pixels the search never ends. -/
theorem C44_no_pixels (need f fuel : ℕ) (h : 0 < need) : padSearch 0 need fuel f = none := by
  induction fuel generalizing f with
  | zero => rfl
  | succ n ih => rw [padSearch, if_pos (by omega)]; exact ih _

end Soapy.Props
