/-
Model of the sub-aperture geometry of the Shack-Hartmann sensor (`wfs/shackhartmann.py`): active sub-apertures, their places on the
detector, cutting and placing, and the FFT padding search.
-/
import Verif.Model.Mirror

namespace Soapy.Subaps

open Soapy.Mirror

/-- Start of sub-aperture `k` on an axis of `rows` mask pixels: `int(numpy.round(k * spacing))` (shackhartmann.py:503-504, 519-522). -/
def bound (rows nx k : ℕ) : ℕ := (pyRound ((k : ℚ) * ((rows : ℚ) / nx))).toNat

/-- `subap.mean()` of sub-aperture `(x, y)`; `none` is NaN, the mean of an empty array (shackhartmann.py:519-524). -/
def subMean (mask : Arr2) (nx x y : ℕ) : Option ℚ :=
  let r := (bound mask.rows nx x, bound mask.rows nx (x + 1))
  let c := (bound mask.cols nx y, bound mask.cols nx (y + 1))
  if (r.2 - r.1) * (c.2 - c.1) = 0 then none
  else some ((∑ i ∈ Finset.range (r.2 - r.1), ∑ j ∈ Finset.range (c.2 - c.1), mask.px (r.1 + i) (c.1 + j)) / ((r.2 - r.1) * (c.2 - c.1) : ℕ))

/-- `subap.mean() >= threshold`; comparisons with NaN are false (shackhartmann.py:524). -/
def active (mask : Arr2) (nx : ℕ) (threshold : ℚ) (x y : ℕ) : Bool :=
  match subMean mask nx x y with
  | none => false
  | some m => decide (threshold ≤ m)

/-- The loop over `x`, then `y` (shackhartmann.py:517-518) keeping the active sub-apertures. -/
def activeList (mask : Arr2) (nx : ℕ) (threshold : ℚ) : List (ℕ × ℕ) :=
  (List.range nx).flatMap fun x => ((List.range nx).filter fun y => active mask nx threshold x y).map fun y => (x, y)

/-- `fills` (shackhartmann.py:526). -/
def fills (mask : Arr2) (nx : ℕ) (threshold : ℚ) : List ℚ :=
  (activeList mask nx threshold).map fun s => (subMean mask nx s.1 s.2).getD 0

/-- `pupil_coords.astype('int32')` on one axis (shackhartmann.py:525, 559). -/
def pupilCoord (rows nx x : ℕ) : ℤ := pyInt ((x : ℚ) * ((rows : ℚ) / nx))

/-- `interp_subap_coords` on one axis (shackhartmann.py:129-130): `pad` is `sim_pad`, `n` is `nx_subap_interp`. -/
def interpCoord (pupil nx pad n x : ℕ) : ℤ := pyRound (((pupilCoord pupil nx x + pad : ℤ) : ℚ) * n / ((pupil : ℚ) / nx))

/-! ### On the detector -/

/-- `nx_detector_pixels` (shackhartmann.py:514; the same number at 76). -/
def detSize (nx p g : ℕ) : ℕ := nx * p + (nx + 1) * g

/-- The coordinates for one axis before conversion to integers (shackhartmann.py:512-514, 531-555): `dx1, dx2` on the detector and `sx1, sx2` in the sub-aperture image. -/
def axisCoords (nx p o g x : ℕ) : ℚ × ℚ × ℚ × ℚ :=
  let over : ℚ := o * p
  let pad : ℚ := (over - p) / 2
  let d1 : ℚ := x * p - pad + (x + 1) * g
  let d2 : ℚ := (x + 1) * p + pad + (x + 1) * g
  let s1 : ℚ := if d1 < 0 then -d1 else 0
  let s2 : ℚ := if (detSize nx p g : ℚ) < d2 then -(d2 - detSize nx p g) else over
  (d1, d2, s1, s2)

/-- `detector_coords.clip(0, nx_detector_pixels).astype('int32')` (shackhartmann.py:560-561), one axis. -/
def detRange (nx p o g x : ℕ) : ℤ × ℤ :=
  let c := axisCoords nx p o g x
  let cl := fun z : ℚ => pyInt (min (max z 0) (detSize nx p g))
  (cl c.1, cl c.2.1)

/-- `subap_coords.astype('int32')` (shackhartmann.py:562), one axis. -/
def subRange (nx p o g x : ℕ) : ℤ × ℤ :=
  let c := axisCoords nx p o g x
  (pyInt c.2.2.1, pyInt c.2.2.2)

/-- `detector_cent_coords` (shackhartmann.py:528-529), one axis. -/
def centCoord (p g x : ℕ) : ℕ := x * p + (x + 1) * g

/-- Source index for target index `k` under broadcasting of one axis (`n` source elements to `m`): `none` if the shapes do not fit. -/
def bcast (n m : ℕ) : Option (ℕ → ℕ) := if n = m then some fun k => k else if n = 1 then some fun _ => 0 else none

/- Pixel values may be of any type with addition. -/
variable {K : Type}

/-- One iteration of `place_subaps_on_detector` (wfslib.py:118-121): `detector_img[x1:x2, y1:y2] += subap_img[sx1:sx2, sy1:sy2]`; shapes that do not fit
raise `ValueError`.  `n` is the number of detector pixels across, `s` that of the sub-aperture image. -/
def placeOne [Add K] (n s : ℕ) (det : ℕ → ℕ → K) (img : ℕ → ℕ → K) (dx dy sx sy : ℤ × ℤ) : Except PyErr (ℕ → ℕ → K) :=
  let d1 := sliceBound n dx.1
  let e1 := sliceBound n dy.1
  let s1 := sliceBound s sx.1
  let t1 := sliceBound s sy.1
  let rows := sliceLen n dx.1 dx.2
  let cols := sliceLen n dy.1 dy.2
  match bcast (sliceLen s sx.1 sx.2) rows, bcast (sliceLen s sy.1 sy.2) cols with
  | some f, some h => .ok fun r c =>
      if (d1 ≤ r ∧ r < d1 + rows) ∧ (e1 ≤ c ∧ c < e1 + cols) then det r c + img (s1 + f (r - d1)) (t1 + h (c - e1)) else det r c
  | _, _ => .error .valueError

/-- `place_subaps_on_detector` (wfslib.py:112-123) for a list of sub-apertures with their images. -/
def place [Add K] (nx p o g : ℕ) (det : ℕ → ℕ → K) : List ((ℕ × ℕ) × (ℕ → ℕ → K)) → Except PyErr (ℕ → ℕ → K)
  | [] => .ok det
  | s :: rest =>
    (placeOne (detSize nx p g) (o * p) det s.2 (detRange nx p o g s.1.1) (detRange nx p o g s.1.2) (subRange nx p o g s.1.1) (subRange nx p o g s.1.2)).bind
      fun det' => place nx p o g det' rest

/-- What `chop_subaps` cuts out for centroiding (shackhartmann.py:428-430, wfslib.py:68-76). -/
def cut (p g : ℕ) (det : ℕ → ℕ → K) (s : ℕ × ℕ) (i j : ℕ) : K := det (centCoord p g s.1 + i) (centCoord p g s.2 + j)

/-! ### FFT padding -/

/-- The loop of `initFFTs` (shackhartmann.py:163-170), the same in `PSFCamera.__init__` (scienceinstrument.py:122-132): raise the oversampling until the padded
size reaches the field of view.  `fuel` bounds the iterations of this model only; `none` means still running. -/
def padSearch (px need : ℕ) : ℕ → ℕ → Option ℕ
  | 0, _ => none
  | fuel + 1, f => if px * f < need then padSearch px need fuel (f + 1) else some f

end Soapy.Subaps
