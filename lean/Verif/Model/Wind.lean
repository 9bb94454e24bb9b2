/-
Model of what an infinite screen hands out: interpolation between its rows and turning into the direction of the wind.
-/
import Verif.Model.Atmos

namespace Soapy.Atmos

open Soapy.Mirror Soapy.Interp

/-- `_scrn` as an array of `len × nx` (`stencil_length` and `nx_size` of the screen). -/
def infArr (len nx : ℕ) (s : Inf) : Arr2 := ⟨len, nx, fun r c => (s.scr.getD r []).getD c 0⟩

/-- `output_screen` (atmosphere.py:498, 521-522) of `nx × nx`; an element that cannot be read (never for winds that are not negative, see `Props/Wind.lean`) is 0 here. -/
def outArr (len nx : ℕ) (s : Inf) : Arr2 := ⟨nx, nx, fun i j => match outInf (infArr len nx s) s.fp i j with | .ok q => q | .error _ => 0⟩

/-- A wind direction: one of the four that are treated on their own, or any other, with cosine and sine. -/
inductive Dir where
  | d0 | d90 | d180 | d270
  | other (c s : ℚ)

/-- Cosine and sine of a direction. -/
def Dir.cs : Dir → ℚ × ℚ
  | .d0 => (1, 0)
  | .d90 => (0, 1)
  | .d180 => (-1, 0)
  | .d270 => (0, -1)
  | .other c s => (c, s)

/-- `rotate_screen` (atmosphere.py:528-553), element `(i, j)`; `m` is `nx_output_size`. `numpy.rot90(a)[i, j] = a[j, m-1-i]`, three times: `a[m-1-j, i]`; `numpy.flipud(a)[i, j] = a[m-1-i, j]`. -/
def rotateScreen (a : Arr2) (m : ℕ) : Dir → ℕ → ℕ → Except PyErr ℚ
  | .d0, i, j => .ok (a.px i j)
  | .d90, i, j => .ok (a.px j (m - 1 - i))
  | .d180, i, j => .ok (a.px (m - 1 - i) j)
  | .d270, i, j => .ok (a.px (m - 1 - j) i)
  | .other c s, i, j => rotateVal a m m c s i j

/-- Element `(i, j)` of what `move_screen` returns in frame `n` (0 for the new screen). -/
def infOut (gen : ℕ → List (List ℚ) → List ℚ) (len nx m : ℕ) (v : ℚ) (d : Dir) (init : List (List ℚ)) (n i j : ℕ) : Except PyErr ℚ :=
  rotateScreen (outArr len nx (runInf gen len v init n)) m d i j

end Soapy.Atmos
