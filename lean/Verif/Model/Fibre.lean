/-
Model of the single-mode fibre (`scienceinstrument.py:330-353`) over the real and complex numbers.
-/
import Verif.Model.Spot
import Mathlib.Analysis.SpecialFunctions.Exp
import Mathlib.Analysis.SpecialFunctions.Sqrt
import Mathlib.Algebra.Order.BigOperators.Ring.Finset

namespace Soapy.Fibre

open Soapy.Spot Finset

/-- Sum of an `n × n` array. -/
def total {M : Type} [AddCommMonoid M] (n : ℕ) (f : ℕ → ℕ → M) : M := ∑ i ∈ range n, ∑ j ∈ range n, f i j

/-- `aotools.gaussian2d((n, n), (w, w))`: centred at `n / 2`. -/
noncomputable def gauss (n : ℕ) (w : ℝ) (i j : ℕ) : ℝ := Real.exp (-((((n : ℝ) / 2 - j) / w) ^ 2 + (((n : ℝ) / 2 - i) / w) ^ 2) / 2)

/-- `fibreEfield` (scienceinstrument.py:342-345): normalised on an array three times as large. -/
noncomputable def fibreField (n : ℕ) (w : ℝ) (i j : ℕ) : ℝ := gauss n w i j / √(total (3 * n) fun a b => |gauss (3 * n) w a b| ^ 2)

/-- `normMask` (scienceinstrument.py:335). -/
noncomputable def normMask (n : ℕ) (m : ℕ → ℕ → ℝ) (i j : ℕ) : ℝ := m i j / √(total n fun a b => |m a b| ^ 2)

/-- `refCouplingLoss` (scienceinstrument.py:348-349). -/
noncomputable def refCouplingLoss (n : ℕ) (m : ℕ → ℕ → ℝ) (w : ℝ) : ℝ := 1 - |total n fun i j => fibreField n w i j * normMask n m i j| ^ 2

/-- `calcInstStrehl` (scienceinstrument.py:352-353); `e` is `los.EField`. -/
noncomputable def instStrehl (n : ℕ) (m : ℕ → ℕ → ℝ) (w : ℝ) (e : ℕ → ℕ → ℂ) : ℝ := ‖total n fun i j => (fibreField n w i j : ℂ) * e i j * (normMask n m i j : ℂ)‖ ^ 2

/-- `los.EField` with geometric propagation (lineofsight.py:257, 304, 343): turbulence minus correction, in radians. -/
noncomputable def geoField (turb corr : ℕ → ℕ → ℝ) (i j : ℕ) : ℂ := 1 * cis (turb i j) * cis (-corr i j)

/-- What the camera reports. -/
structure Cam where
  inst : ℝ
  long : ℝ

/-- `PSFCamera.__init__` and `reset` (scienceinstrument.py:170-185). -/
def newCam : Cam := ⟨0, 0⟩

/-- A frame of the fibre (scienceinstrument.py:311-327, 352-353): `calcInstStrehl` of the fibre sets `instStrehl` alone. -/
noncomputable def camFrame (n : ℕ) (m : ℕ → ℕ → ℝ) (w : ℝ) (c : Cam) (e : ℕ → ℕ → ℂ) : Cam := { c with inst := instStrehl n m w e }

end Soapy.Fibre
