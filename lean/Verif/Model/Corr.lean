/-
Model of the correlation centroiding of `ExtendedSH` (extendedshackhartmann.py): the reference image, the correlation images and the slopes, over the real and complex numbers.
-/
import Verif.Model.Conv
import Verif.Model.Py

namespace Soapy.Corr

open Soapy.Conv Finset

/-- An array as it is given for the reference: its shape and its pixels by index. -/
structure Given where
  shape : List ℕ
  px : List ℕ → ℝ

/-- The setter of `referenceImage` (extendedshackhartmann.py:198-231): `K` active sub-apertures of `n × n` pixels on a detector of `D × D`, sub-aperture `k` starts at `coords k`. An array of any other shape leaves the zeros of line 208.
Simplified: `coords` are whole numbers and within the detector (C43). -/
noncomputable def reference (K n D : ℕ) (coords : ℕ → ℕ × ℕ) (g : Given) : ℕ → ℕ → ℕ → ℝ :=
  if g.shape = [K, n, n] then fun k i j => g.px [k, i, j]
  else if g.shape = [n, n] then fun _ i j => g.px [i, j]
  else if g.shape = [D, D] then fun k i j => g.px [(coords k).1 + i, (coords k).2 + j]
  else fun _ _ _ => 0

/-- `centSubapArrays` (extendedshackhartmann.py:149-154): the pieces of the detector. -/
def pieces (coords : ℕ → ℕ × ℕ) (det : ℕ → ℕ → ℝ) (k i j : ℕ) : ℝ := det ((coords k).1 + i) ((coords k).2 + j)

/-- `min((1,2))` of one sub-aperture (extendedshackhartmann.py:110). -/
noncomputable def lowest (n : ℕ) (a : ℕ → ℕ → ℝ) : ℝ := (range n ×ˢ range n).fold min (a 0 0) fun x => a x.1 x.2

/-- Without its lowest value (extendedshackhartmann.py:109-110). -/
noncomputable def removeMin (n : ℕ) (a : ℕ → ℕ → ℝ) (i j : ℕ) : ℝ := a i j - lowest n a

/-- `PAD` (extendedshackhartmann.py:124-128): 0 for `None`; `numpy.pad` refuses negative widths. -/
def padOf (n : ℕ) : Option ℕ → Except PyErr ℕ
  | none => .ok 0
  | some p => let q := pyRound (1 / 2 * ((p : ℚ) - n)); if q < 0 then .error .valueError else .ok q.toNat

/-- `numpy.pad(…, mode='constant')` of one sub-aperture by `P` on all sides (extendedshackhartmann.py:129-134). -/
def padded (P n : ℕ) (a : ℕ → ℕ → ℝ) (i j : ℕ) : ℝ := if (P ≤ i ∧ i < P + n) ∧ P ≤ j ∧ j < P + n then a (i - P) (j - P) else 0

/-- `ifft2(fft2(…) * fft2(…))` (extendedshackhartmann.py:136-137). -/
noncomputable def spectral (N : ℕ) (a b : ℕ → ℕ → ℝ) (u v : ℕ) : ℂ :=
  ifft N N (fun p q => fft N N (fun i j => (a i j : ℂ)) p q * fft N N (fun i j => (b i j : ℂ)) p q) u v

/-- `makeCorrelationImgs` (extendedshackhartmann.py:103-137) with padding `P`: pixel `(i, j)` of `corrSubapArrays[k]`. `fftshift` is called without axes and so shifts all three. -/
noncomputable def corrImgs (K n P : ℕ) (sub ref : ℕ → ℕ → ℕ → ℝ) (k i j : ℕ) : ℝ :=
  (spectral (n + 2 * P) (padded P n (removeMin n (sub (npShift K k)))) (padded P n (ref (npShift K k))) (npShift (n + 2 * P) i) (npShift (n + 2 * P) j)).re

/-- `calculateSlopes` (extendedshackhartmann.py:140-171) with a reference image, without `removeTT` and noise: both measurements of sub-aperture `k`. `cent N f` is the centroid of the image `f` of `N × N` pixels. -/
noncomputable def slopesOf (cent : ℕ → (ℕ → ℕ → ℝ) → ℝ × ℝ) (K n : ℕ) (pad : Option ℕ) (coords : ℕ → ℕ × ℕ) (ref : ℕ → ℕ → ℕ → ℝ) (static : ℕ → ℝ × ℝ) (det : ℕ → ℕ → ℝ) : Except PyErr (ℕ → ℝ × ℝ) := do
  let P ← padOf n pad
  .ok fun k => cent (n + 2 * P) (corrImgs K n P (pieces coords det) ref k) - ((n : ℝ) / 2, (n : ℝ) / 2) - static k

end Soapy.Corr
