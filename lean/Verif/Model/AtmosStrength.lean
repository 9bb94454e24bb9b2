/-
Turbulence strength, coherence time and stored screens (soapy/atmosphere.py), in real arithmetic.

Simplified: floating point numbers are real numbers; all profiles have the same length (numpy would broadcast length 1 and raise `ValueError` otherwise).
-/
import Mathlib.Analysis.SpecialFunctions.Pow.Real

namespace Soapy.Atmos

/-- `normScrnStrengths` (atmosphere.py:112-113, again 371-373): all strengths, divided by the sum over the first `k = scrnNo`. -/
noncomputable def shares (k : ℕ) (s : List ℝ) : List ℝ := s.map (· / (s.take k).sum)

/-- `self.scrnStrengths`, the Fried parameter of every layer (atmosphere.py:117-118, again 374-375). -/
noncomputable def layerR0 (k : ℕ) (r0 : ℝ) (s : List ℝ) : List ℝ :=
  (shares k s).map fun n => (r0 ^ (-5 / 3 : ℝ) * n) ^ (-3 / 5 : ℝ)

/-- Factor put on the screen of a layer with Fried parameter `r` (atmosphere.py:377, without the constant for nanometres); `whole` is `wholeScrnR0`. -/
noncomputable def screenFactor (whole r : ℝ) : ℝ := (r / whole) ^ (-5 / 6 : ℝ)

/-- `vBar53` (atmosphere.py:121 and 130). -/
noncomputable def vBar (k : ℕ) (ws ns : List ℝ) : ℝ :=
  (List.zipWith (fun w n => w ^ (5 / 3 : ℝ) * n) (ws.take k) (ns.take k)).sum ^ (3 / 5 : ℝ)

/-- `tau0` (atmosphere.py:122 and 131). -/
noncomputable def tau (k : ℕ) (r0 : ℝ) (ws ns : List ℝ) : ℝ := 0.314 * r0 / vBar k ws ns

/-- `self.windSpeeds` after initialisation (atmosphere.py:125-128); `none` and 0 mean that no coherence time is requested. -/
noncomputable def winds (k : ℕ) (r0 : ℝ) (want : Option ℝ) (ws s : List ℝ) : List ℝ :=
  match want with
  | none => ws
  | some t => if t = 0 then ws else ws.map fun w => w * tau k r0 ws (shares k s) / t

/-- The R0 header written by `saveScrns` (atmosphere.py:280) with `r = wholeScrnR0`, and by `makePhaseScreens` (atmosphere.py:464) with the given `r0`. -/
noncomputable def header (r pixel : ℝ) : ℝ := r / pixel

/-- Factor put on a screen when it is loaded (atmosphere.py:202-206); screens without header are left alone (208-209). -/
noncomputable def loadFactor (whole pixel : ℝ) (h : Option ℝ) : ℝ :=
  match h with
  | none => 1
  | some h => (whole / (h * pixel)) ^ (-5 / 6 : ℝ)

end Soapy.Atmos
