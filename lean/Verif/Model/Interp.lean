/-
Model of the interpolation kernels of `numbalib/numbalib.py`.
-/
import Verif.Model.Mirror

namespace Soapy.Interp

open Soapy.Mirror

/-- Index along an axis of length `n` in numba-compiled code: negative indices count from the end, there is no bounds check, so
anything else reads foreign memory.  We make that an error to be able to talk about it. -/
def axisIdx (n : ℕ) (i : ℤ) : Except PyErr ℕ :=
  if 0 ≤ i ∧ i < n then .ok i.toNat
  else if -(n : ℤ) ≤ i ∧ i < 0 then .ok (i + n).toNat
  else .error .indexError

/-- `data[i, j]` in compiled code. -/
def readPx (a : Arr2) (i j : ℤ) : Except PyErr ℚ :=
  match axisIdx a.rows i, axisIdx a.cols j with
  | .ok r, .ok c => .ok (a.px r c)
  | _, _ => .error .indexError

/-- The innermost block shared by `bilinear_interp_numba` (numbalib.py:61-75), `bilinear_interp_numba_inbounds` (101-113), `rotate`
(132-145), `zoom` (200-212) and `zoomtoefield` (wfslib.py:27-39): the value at coordinates `(x, y)`.  Exact arithmetic instead of floating point. -/
def bilinAt (a : Arr2) (x y : ℚ) : Except PyErr ℚ :=
  let x1 := pyInt x
  let y1 := pyInt y
  match readPx a (x1 + 1) y1, readPx a x1 y1, readPx a (x1 + 1) (y1 + 1), readPx a x1 (y1 + 1) with
  | .ok d10, .ok d00, .ok d11, .ok d01 =>
    let a1 := d00 + (d10 - d00) * (x - x1)
    let a2 := d01 + (d11 - d01) * (x - x1)
    .ok (a1 + (a2 - a1) * (y - y1))
  | _, _, _, _ => .error .indexError

/-- The check in `bilinear_interp_numba` on one axis of length `n` (numbalib.py:59-60, 64-65). -/
def clampHi (n : ℕ) (x : ℚ) : ℚ := if (n : ℚ) - 1 ≤ x then n - 1 - 1 / 10 ^ 9 else x

/-- One output element of `bilinear_interp` (numbalib.py:14-114) for either value of `bounds_check`. -/
def interpVal (check : Bool) (a : Arr2) (x y : ℚ) : Except PyErr ℚ :=
  if check then bilinAt a (clampHi a.rows x) (clampHi a.cols y) else bilinAt a x y

/-- `bilinear_interp(data, xCoords, yCoords, interpArray)` (numbalib.py:14-114): rows of the result.  (The order of the loop iterations is the
subject of `Soapy.Par`.)  `interpArray` is assumed to have the right shape. -/
def interp (check : Bool) (a : Arr2) (xs ys : List ℚ) : Except PyErr (List (List ℚ)) :=
  xs.mapM fun x => ys.mapM fun y => interpVal check a x y

/-- `numpy.linspace(x1, x2, n)`; the single point for `n = 1` is `x1`. -/
def linspace (x1 x2 : ℚ) (n : ℕ) : List ℚ :=
  (List.range n).map fun (k : ℕ) => if n = 1 then x1 else x1 + k * ((x2 - x1) / ((n : ℚ) - 1))

/-- `numpy.clip(lo, hi)` of one number: `minimum(maximum(x, lo), hi)`. -/
def clip (lo hi x : ℚ) : ℚ := min (max x lo) hi

/-- The coordinate of `zoom` on one axis (numbalib.py:199, 202; wfslib.py:26, 29): source length `n`, target length `m`, target index `k`. -/
def zoomCoord (n m k : ℕ) : ℚ := k * ((n : ℚ) - 1) / (m - 99999999 / 100000000)

/-- `zoom(data, zoomArray)` (numbalib.py:184-214) to `m1 × m2`. -/
def zoom (a : Arr2) (m1 m2 : ℕ) : Except PyErr (List (List ℚ)) :=
  interp false a ((List.range m1).map fun k => zoomCoord a.rows m1 k) ((List.range m2).map fun k => zoomCoord a.cols m2 k)

/-- One element `(i, j)` of `rotate(data, interpArray, angle)` (numbalib.py:117-146); `c` and `s` are the cosine and sine of the angle,
`m1 × m2` the shape of `interpArray`. -/
def rotateVal (a : Arr2) (m1 m2 : ℕ) (c s : ℚ) (i j : ℕ) : Except PyErr ℚ :=
  let i1 : ℚ := i - ((m1 : ℚ) / 2 - 1 / 2)
  let j1 : ℚ := j - ((m2 : ℚ) / 2 - 1 / 2)
  let x := i1 * c - j1 * s + ((a.rows : ℚ) / 2 - 1 / 2)
  let y := i1 * s + j1 * c + ((a.cols : ℚ) / 2 - 1 / 2)
  let x' := if (a.rows : ℚ) - 1 ≤ x then (a.rows : ℚ) - 11 / 10 else x
  let y' := if (a.cols : ℚ) - 1 ≤ y then (a.cols : ℚ) - 11 / 10 else y
  bilinAt a x' y'

end Soapy.Interp
