/-
How far turbulence moves in a frame (soapy/atmosphere.py), in real arithmetic.
-/
import Mathlib.Analysis.SpecialFunctions.Trigonometric.Basic
import Mathlib.Analysis.SpecialFunctions.Pow.Real

namespace Soapy.Atmos

/-- `windV[i]` (atmosphere.py:233-237): pixels per frame along both axes; direction in degrees, `T` is `loopTime`, `pixel` is `pixel_scale` (metres). -/
noncomputable def windV (speed degrees T pixel : ℝ) : ℝ × ℝ :=
  (speed * Real.cos (degrees * Real.pi / 180) * T / pixel, speed * Real.sin (degrees * Real.pi / 180) * T / pixel)

/-- `n_move_pixels` of an infinite screen (atmosphere.py:489). -/
noncomputable def movePixels (speed T pixel : ℝ) : ℝ := speed * T / pixel

/-- What a layer shows (atmosphere.py:170-184, 377, without the constant for nanometres): a stored screen made by `gen` (aotools) for `wholeScrnR0 = 1`, a pixel scale, an outer and an inner scale, times
the factor for the layer's Fried parameter `r`. -/
noncomputable def shown (gen : ℝ → ℝ → ℝ → ℝ → ℕ → ℕ → ℝ) (pixel L0 l0 r : ℝ) (i j : ℕ) : ℝ := gen 1 pixel L0 l0 i j * (r / 1) ^ (-5 / 6 : ℝ)

end Soapy.Atmos
