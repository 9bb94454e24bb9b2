/-
Model of `atmosphere.py`: translated finite screens and infinite screens.  (Strengths and wind speeds are in `Soapy.AtmosStrength`.)
-/
import Verif.Model.Interp

namespace Soapy.Atmos

open Soapy.Mirror Soapy.Interp

/-- `numpy.roll(a, s, axis=0)`. -/
def roll0 (a : Arr2) (s : ℤ) : Arr2 := ⟨a.rows, a.cols, fun i j => a.px (((i : ℤ) - s) % a.rows).toNat j⟩

/-- `numpy.roll(a, s, axis=1)`. -/
def roll1 (a : Arr2) (s : ℤ) : Arr2 := ⟨a.rows, a.cols, fun i j => a.px i (((j : ℤ) - s) % a.cols).toNat⟩

/-- `numpy.arange(n).astype(float) + p`. -/
def coordsFrom (n : ℕ) (p : ℚ) : List ℚ := (List.range n).map fun (k : ℕ) => (k : ℚ) + p

/-- The attributes of one layer: `wholeScrns[i]`, the array held by `interpScrns[i]`, `scrnPos[i]`, `xCoords[i]`, `yCoords[i]`. -/
structure Layer where
  scr : Arr2
  spl : Arr2
  posX : ℚ
  posY : ℚ
  xs : List ℚ
  ys : List ℚ

/-- Initialisation of one layer (atmosphere.py:167, 230-264) with window size `s`, `wholeScrnSize = W`, velocity `v` in pixels per frame: the slice assignment fails if the screen is smaller than the
window, the spline constructor if the screen is not `W × W`.  (A screen of one pixel would broadcast; excluded by `2 ≤ s`.) -/
def initLayer (W s : ℕ) (scr : Arr2) (v : ℚ × ℚ) : Except PyErr Layer :=
  if scr.rows < s ∨ scr.cols < s then .error .valueError
  else if scr.rows ≠ W ∨ scr.cols ≠ W then .error .valueError
  else
    let px : ℚ := if v.1 < 0 then (scr.rows : ℚ) - s else 0
    let py : ℚ := if v.2 < 0 then (scr.cols : ℚ) - s else 0
    .ok ⟨scr, scr, px, py, coordsFrom s px, coordsFrom s py⟩

/-- The X half of the edge handling of `moveScrns` (atmosphere.py:313-338). -/
def wrapX (W s : ℕ) (l : Layer) : Layer :=
  let l := if (W : ℚ) ≤ l.posX + s then
      let scr := roll0 l.scr (pyInt (-l.posX))
      { l with scr := scr, spl := scr, posX := 0, xs := coordsFrom s 0 }
    else l
  if l.posX < 0 then
    let scr := roll0 l.scr (pyInt ((W : ℚ) - l.posX - s))
    { l with scr := scr, spl := scr, posX := (W : ℚ) - s, xs := coordsFrom s ((W : ℚ) - s) }
  else l

/-- The Y half (atmosphere.py:339-361). -/
def wrapY (W s : ℕ) (l : Layer) : Layer :=
  let l := if (W : ℚ) ≤ l.posY + s then
      let scr := roll1 l.scr (pyInt (-l.posY))
      { l with scr := scr, spl := scr, posY := 0, ys := coordsFrom s 0 }
    else l
  if l.posY < 0 then
    let scr := roll1 l.scr (pyInt ((W : ℚ) - l.posY - s))
    { l with scr := scr, spl := scr, posY := (W : ℚ) - s, ys := coordsFrom s ((W : ℚ) - s) }
  else l

/-- The window moves on (atmosphere.py:365-368). -/
def advance (v : ℚ × ℚ) (l : Layer) : Layer :=
  { l with posX := l.posX + v.1, posY := l.posY + v.2, xs := l.xs.map (· + v.1), ys := l.ys.map (· + v.2) }

/-- One layer in one call of `moveScrns` (atmosphere.py:311-378): the new state and the screen handed out.  `spline a x y` is the value of
`RectBivariateSpline(arange, arange, a)` at `(x, y)`; `scale` is the product of the strength and nanometre factors (371-378), constant during a run. -/
def moveLayer (spline : Arr2 → ℚ → ℚ → ℚ) (scale : ℚ) (W s : ℕ) (v : ℚ × ℚ) (l : Layer) : Layer × List (List ℚ) :=
  let l := wrapY W s (wrapX W s l)
  (advance v l, l.xs.map fun x => l.ys.map fun y => spline l.spl x y * scale)

/-- The state before frame `n` (counted from 0). -/
def runLayer (W s : ℕ) (v : ℚ × ℚ) (l : Layer) : ℕ → Layer
  | 0 => l
  | n + 1 => advance v (wrapY W s (wrapX W s (runLayer W s v l n)))

/-- The screen handed out in frame `n`. -/
def outLayer (spline : Arr2 → ℚ → ℚ → ℚ) (scale : ℚ) (W s : ℕ) (v : ℚ × ℚ) (l : Layer) (n : ℕ) : List (List ℚ) :=
  (moveLayer spline scale W s v (runLayer W s v l n)).2

/-! ### Infinite screens -/

/-- `InfinitePhaseScreen` (atmosphere.py:471-553): `_scrn` (newest row first), `float_position`, and how many rows were drawn so far. -/
structure Inf where
  scr : List (List ℚ)
  fp : ℚ
  drawn : ℕ

/-- The row loop (atmosphere.py:513-517): `gen k scr` is the `k`-th call of `get_new_row` (statistics are not modelled). -/
def addRows (gen : ℕ → List (List ℚ) → List ℚ) : ℕ → Inf → Inf
  | 0, s => s
  | n + 1, s => addRows gen n { s with scr := gen s.drawn s.scr :: s.scr, drawn := s.drawn + 1 }

/-- `move_screen` without the interpolation (atmosphere.py:503-519); `v` is `n_move_pixels`, `len` is `stencil_length`. -/
def moveInf (gen : ℕ → List (List ℚ) → List ℚ) (len : ℕ) (v : ℚ) (s : Inf) : Inf :=
  let k := pyInt v
  let fp := s.fp + (v - k)
  let (k, fp) := if 1 ≤ fp then (k + 1, fp - 1) else (k, fp)
  -- range of a negative number is empty
  let s := addRows gen k.toNat { s with fp := fp }
  { s with scr := s.scr.take len }

/-- After `n` frames from the freshly created screen. -/
def runInf (gen : ℕ → List (List ℚ) → List ℚ) (len : ℕ) (v : ℚ) (init : List (List ℚ)) : ℕ → Inf
  | 0 => ⟨init, 0, 0⟩
  | n + 1 => moveInf gen len v (runInf gen len v init n)

/-- `output_screen` (atmosphere.py:498, 521-522): coordinates `1 … nx` minus the fractional offset in x, `1 … nx` in y. -/
def outInf (a : Arr2) (fp : ℚ) (i j : ℕ) : Except PyErr ℚ :=
  interpVal true a ((i : ℚ) + 1 - fp) ((j : ℚ) + 1)

/-- `nx_size` of the screen and of the output (atmosphere.py:476-481); `2√2 n` rounded up is modelled as the least `m` with `8 n² ≤ m²`. -/
def infSizes (nx : ℕ) (windDir : ℚ) : ℕ × ℕ :=
  if windDir = 0 ∨ windDir = 90 ∨ windDir = 180 ∨ windDir = 270 then (nx, nx)
  else (if Nat.sqrt (8 * nx ^ 2) ^ 2 = 8 * nx ^ 2 then Nat.sqrt (8 * nx ^ 2) else Nat.sqrt (8 * nx ^ 2) + 1, nx)

end Soapy.Atmos
