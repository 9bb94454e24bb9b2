/-
Model of the other ways to bin images and to place sub-apertures: `interp.binImgs` (numpy slices) and the plain Python versions `bin_img_slow`, `bin_imgs_slow`, `chop_subaps_slow`,
`chop_subaps_mask_slow` and `place_subaps_on_detector_slow` of the compiled kernels.

Simplifications: rational pixels, no rounding or overflow; one image for `binImgs` (a stack is treated image by image by the same slices).
-/
import Verif.Model.Par
import Verif.Model.Mirror

namespace Soapy.Kernels

open Soapy.Par Soapy.Mirror

/-- Number of columns of `data[:, i::n]` (interp.py:119), `n > 0`. -/
def sliceCount (size i n : ℕ) : ℕ := (size - i + n - 1) / n

/-- `binnedImgTmp += data[:, i::n]` (interp.py:118-119) for `i = 0 … n-1`, beginning with zeros of `new` columns: numpy wants as many columns as there are, or one column for all. -/
def addSlices (n new : ℕ) (a : Arr2) : Except PyErr Arr2 :=
  (List.range n).foldlM (fun t i =>
      let k := sliceCount a.cols i n
      if k = new then .ok ⟨a.rows, new, fun r j => t.px r j + a.px r (i + j * n)⟩
      else if k = 1 then .ok ⟨a.rows, new, fun r j => t.px r j + a.px r i⟩
      else .error .valueError)
    ⟨a.rows, new, fun _ _ => 0⟩

/-- Rows and columns exchanged. -/
def transpose (a : Arr2) : Arr2 := ⟨a.cols, a.rows, fun i j => a.px j i⟩

/-- `shape[-1] /= n` (interp.py:116, 120): the quotient is cut to an integer when it is stored in the array of integers; infinity and NaN cannot be stored, a negative size is refused by
`numpy.zeros` (117, 121). -/
def newSize (size : ℕ) (n : ℤ) : Except PyErr ℕ :=
  if n = 0 then (if size = 0 then .error .valueError else .error .overflowError)
  else if pyInt ((size : ℚ) / n) < 0 then .error .valueError
  else .ok (pyInt ((size : ℚ) / n)).toNat

/-- `interp.binImgs(data, n)` (interp.py:99-138): columns first, then rows.  `numpy.round` (113) is the rounding to even of `pyRound`. -/
def binImgs (a : Arr2) (n : ℚ) : Except PyErr Arr2 := do
  let n := pyRound n
  let c ← newSize a.cols n
  let t ← addSlices n.toNat c a
  let r ← newSize t.rows n
  let u ← addSlices n.toNat r (transpose t)
  return transpose u

/-- `bin_img_slow(img, bin_size, new_img)` (numbalib.py:170-182): the rows one after the other. -/
def binImgSlow (img : ℕ → ℕ → ℚ) (b rows cols : ℕ) (m : ℕ × ℕ → ℚ) : ℕ × ℕ → ℚ := (List.range rows).foldl (fun m i => run m (binThread img b cols i)) m

/-- `bin_imgs_slow(imgs, bin_size, new_img)` (wfslib.py:155-168): the sub-apertures one after the other. -/
def binImgsSlow (imgs : ℕ → ℕ → ℕ → ℚ) (b n rows cols : ℕ) (m : ℕ × ℕ × ℕ → ℚ) : ℕ × ℕ × ℕ → ℚ := (List.range n).foldl (fun m k => run m (binImgsThread imgs b rows cols k)) m

/-- `chop_subaps_slow` (wfslib.py:79-86) and, with `phase` multiplied by the mask, `chop_subaps_mask_slow` (wfslib.py:58-65). -/
def chopSlow (phase : ℕ → ℕ → ℚ) (corner : ℕ → ℕ × ℕ) (n subs : ℕ) (m : ℕ × ℕ × ℕ → ℚ) : ℕ × ℕ × ℕ → ℚ := (List.range subs).foldl (fun m k => run m (chopThread phase corner n k)) m

/-- A window of a detector `x1:x2, y1:y2`, inside the detector, with an image of its size. -/
structure Window where
  x1 : ℕ
  x2 : ℕ
  y1 : ℕ
  y2 : ℕ
  img : ℕ → ℕ → ℚ

/-- Is the pixel in the window? -/
def Window.has (w : Window) (r c : ℕ) : Prop := (w.x1 ≤ r ∧ r < w.x2) ∧ (w.y1 ≤ c ∧ c < w.y2)

instance (w : Window) (r c : ℕ) : Decidable (w.has r c) := by unfold Window.has; infer_instance

/-- `place_subaps_on_detector` (wfslib.py:112-123) when the whole image is placed: it is added. -/
def placeFast (det : ℕ → ℕ → ℚ) (ws : List Window) : ℕ → ℕ → ℚ :=
  ws.foldl (fun d w r c => if w.has r c then d r c + w.img (r - w.x1) (c - w.y1) else d r c) det

/-- `place_subaps_on_detector_slow` (wfslib.py:126-136): the image replaces what was there. -/
def placeSlow (det : ℕ → ℕ → ℚ) (ws : List Window) : ℕ → ℕ → ℚ :=
  ws.foldl (fun d w r c => if w.has r c then w.img (r - w.x1) (c - w.y1) else d r c) det

/-- `chop_subaps_efield` (wfslib.py:90-98): numpy has no `prange`, so compiling the function fails at its first call, for every input. -/
def chopEfield (_phase : ℕ → ℕ → ℚ) (_corner : ℕ → ℕ × ℕ) (_n _subs : ℕ) : Except PyErr (ℕ × ℕ × ℕ → ℚ) := .error .attributeError

end Soapy.Kernels
