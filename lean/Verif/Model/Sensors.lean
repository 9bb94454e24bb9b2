/-
Models of the pyramid sensor's measurements (`wfs/pyramid.py`) and of the gradient sensor (`wfs/gradient.py`).
-/
import Verif.Model.Mirror
import Mathlib.Data.Real.Basic
import Mathlib.Algebra.BigOperators.Fin

namespace Soapy.Sensors

open Soapy.Mirror

/-! ### Pyramid -/

/-- The valid pixels of quadrant `(r, c)` in row order: `numpy.abs(quad.flatten()[quad_d.flatten() != 0])` of the detector image multiplied by the mask (pyramid.py:373-398).  `h × w` is the size of a quadrant. -/
def quad (h w : ℕ) (det mask : ℕ → ℕ → ℚ) (r c : ℕ) : List ℚ :=
  (List.range h).flatMap fun i => (List.range w).filterMap fun j =>
    let m := mask (r * h + i) (c * w + j)
    if m ≠ 0 then some |det (r * h + i) (c * w + j) * m| else none

/-- `calculateSlopes(flat=True)` (pyramid.py:367-407): `numpy.split` needs even sizes, quadrants with different numbers of valid pixels do not add up.  `none` stands for the NaNs of a dark image.  Simplified: arrays of different shapes never broadcast. -/
def rawSlopes (det mask : Arr2) : Except PyErr (Option (List ℚ)) :=
  if det.rows ≠ mask.rows ∨ det.cols ≠ mask.cols then .error .valueError
  else if mask.rows % 2 ≠ 0 ∨ mask.cols % 2 ≠ 0 then .error .valueError
  else
    let q := fun r c => quad (mask.rows / 2) (mask.cols / 2) det.px mask.px r c
    let n := (q 0 0).length
    if (q 0 1).length ≠ n ∨ (q 1 0).length ≠ n ∨ (q 1 1).length ≠ n then .error .valueError
    else
      let s := (q 0 0).sum + (q 0 1).sum + (q 1 0).sum + (q 1 1).sum
      let v := fun r c k => (q r c).getD k 0
      let x := (List.range n).map fun k => (v 0 0 k + v 0 1 k - (v 1 0 k + v 1 1 k)) / s
      let y := (List.range n).map fun k => (v 0 0 k + v 1 0 k - (v 0 1 k + v 1 1 k)) / s
      .ok (if s = 0 ∧ n ≠ 0 then none else some (y ++ x))

/-- `calculateSlopes()` (pyramid.py:409): minus `flat_slopes`.  (A single number would be repeated by numpy; `flat_slopes` never has length one when set by the sensor.) -/
def pyrSlopes (flat : List ℚ) (det mask : Arr2) : Except PyErr (Option (List ℚ)) :=
  match rawSlopes det mask with
  | .error e => .error e
  | .ok none => .ok none
  | .ok (some s) => if s.length ≠ flat.length then .error .valueError else .ok (some (List.zipWith (· - ·) s flat))

/-- `calcDetectorMask` (pyramid.py:193-219) from the mask `q1` of the first quadrant, `half` being `int(detector_size / 2)`: the others are mirror images; a last odd row and column stays empty. -/
def detectorMask (size : ℕ) (q1 : ℕ → ℕ → ℚ) : Arr2 :=
  let half := size / 2
  ⟨size, size, fun i j =>
    if i < 2 * half ∧ j < 2 * half then q1 (if i < half then i else half - 1 - (i - half)) (if j < half then j else half - 1 - (j - half)) else 0⟩

/-- `begin` and `end` of the pupil image in the first quadrant (pyramid.py:203-204). -/
def pupilRange (half nx : ℕ) (sep : ℚ) : ℤ × ℤ := (pyInt (half - (nx + sep / 2) + 1 / 2), pyInt (half - sep / 2 + 1 / 2))

/-- `QuadMask1` (pyramid.py:201-205): the `nx × nx` mask `sub` is put on `[begin:end, begin:end]`; numpy refuses a slice of another length (a length of one would be accepted for any slice and is
not distinguished here). -/
def quadMask (half nx : ℕ) (sep : ℚ) (sub : ℕ → ℕ → ℚ) : Except PyErr (ℕ → ℕ → ℚ) :=
  let b := sliceBound half (pupilRange half nx sep).1
  let e := sliceBound half (pupilRange half nx sep).2
  if e - b ≠ nx then .error .valueError
  else .ok fun i j => if b ≤ i ∧ i < b + nx ∧ b ≤ j ∧ j < b + nx then sub (i - b) (j - b) else 0

/-- `SlopeSize` (pyramid.py:221). -/
def slopeSize (size : ℕ) (q1 : ℕ → ℕ → ℚ) : ℕ :=
  ((List.range (size / 2)).flatMap fun i => (List.range (size / 2)).filter fun j => decide (q1 i j ≠ 0)).length * 2

/-- `rebin(arr, [new, new])` (pyramid.py:64-67): `reshape` needs `new * (size // new)` to be the size. -/
def rebin (a : Arr2) (new : ℕ) : Except PyErr Arr2 :=
  if new = 0 then .error .zeroDivisionError
  else if new * (a.rows / new) ≠ a.rows ∨ new * (a.cols / new) ≠ a.cols then .error .valueError
  else
    let b := a.rows / new
    let d := a.cols / new
    .ok ⟨new, new, fun i j => (∑ x ∈ Finset.range b, (∑ y ∈ Finset.range d, a.px (i * b + x) (j * d + y)) / d) / b⟩

/-- `wfsDetectorPlane` before binning (pyramid.py:347-354): slots `0 .. num-1` of the FFT input are written, all `slots = max(32, nb_modulation)` slots are transformed (`f` is the intensity a slot's content gives) and
summed.  `stale` are the contents of the slots not written: uninitialised memory (151-154), then whatever the transform, which may destroy its input, left there. -/
def pyrDetector {F : Type} (f : F → ℚ) (slots num : ℕ) (fields stale : ℕ → F) : ℚ :=
  ∑ m ∈ Finset.range slots, f (if m < num then fields m else stale m)

/-! ### Gradient sensor -/

/-- `subapCoord` (gradient.py:60-65): `a` is the step of `telCoord`; the mean is removed and the sign changed. -/
noncomputable def coord {s : ℕ} (a : ℝ) (k : Fin s) : ℝ := -(a * k - (∑ m : Fin s, a * m) / s)

/-- `(xGrad_1**2).sum()` (gradient.py:69-70); the same for `yGrad_1`. -/
noncomputable def norm2 (s : ℕ) (a : ℝ) : ℝ := ∑ _i : Fin s, ∑ j : Fin s, coord a j ^ 2

/-- Phase in a sub-aperture. -/
abbrev Sub (s : ℕ) := Fin s → Fin s → ℝ

/-- `subap.mean()`. -/
noncomputable def smean {s : ℕ} (p : Sub s) : ℝ := (∑ i, ∑ j, p i j) / (s * s)

/-- Slope along the second axis (gradient.py:150-151; `meshgrid`, 67: `xGrad_1[i, j] = subapCoord[j]`). -/
noncomputable def slopeX {s : ℕ} (a : ℝ) (p : Sub s) : ℝ := ∑ i, ∑ j, (p i j - smean p) * (coord a j / norm2 s a)

/-- Slope along the first axis (gradient.py:152). -/
noncomputable def slopeY {s : ℕ} (a : ℝ) (p : Sub s) : ℝ := ∑ i, ∑ j, (p i j - smean p) * (coord a i / norm2 s a)

/-- `calculateSlopes` without noise (gradient.py:149-160): all x, then all y, optionally without their means.  `n` sub-apertures. -/
noncomputable def gradSlopes {n s : ℕ} (a : ℝ) (removeTT : Bool) (p : Fin n → Sub s) : (Fin n → ℝ) × (Fin n → ℝ) :=
  let x := fun k => slopeX a (p k)
  let y := fun k => slopeY a (p k)
  if removeTT then (fun k => x k - (∑ m, x m) / n, fun k => y k - (∑ m, y m) / n) else (x, y)

/-- The phase of a sub-aperture at `(x, y)` of the pupil (gradient.py:113-126): masked, then cut. -/
def cut {s : ℕ} (mask phase : ℕ → ℕ → ℝ) (x y : ℕ) : Sub s := fun i j => phase (x + i) (y + j) * mask (x + i) (y + j)

end Soapy.Sensors
