/-
Model of which arrays the frames of the parts of a simulation return: places in memory (`FftObj.Mem`), which later frames may overwrite.

Simplifications: an array is the list of its numbers; what a frame computes is a parameter (`v`, `turb`, `corr`) except where the order of the operations on the arrays matters; geometric propagation downwards.
-/
import Verif.Model.FftObj
import Mathlib.Data.Rat.Defs
import Mathlib.Algebra.Order.Field.Rat

namespace Soapy.Returned

open Soapy.FftObj

/-- Memory of rational numbers. -/
abbrev Heap := Mem ℚ

/-- `a[:] = 0` of the array at a place. -/
def zero (h : Heap) (l : ℕ) : Heap := h.set l ((h.at_ l).map fun _ => 0)

/-! ### Atmosphere -/

/-- `atmos.moveScrns` and `randomScrns` (atmosphere.py:288-405): the layers are written into `self.scrns`, the array made in `__init__`, and that array is returned. -/
def moveScrns (h : Heap) (scrns : ℕ) (v : List ℚ) : Heap × ℕ := (h.set scrns v, scrns)

/-! ### Line of sight -/

/-- `LineOfSight.frame` (lineofsight.py:349-392): `zeroData` (258), `makePhaseGeometric` adds the turbulence in radians into `self.phase` (303), `self.residual` is that array (387) unless a correction is given:
then `performCorrection` makes two new arrays (346-348).  State: the place of `self.phase`. -/
def losFrame (k : ℚ) (h : Heap) (phase : ℕ) (turb : List ℚ) (corr : Option (List ℚ)) : Heap × ℕ × ℕ :=
  let h1 := zero h phase
  let h2 := h1.set phase (List.zipWith (· + ·) (h1.at_ phase) (turb.map (· * k)))
  match corr with
  | none => (h2, phase, phase)
  | some c =>
    let (h3, res) := h2.new (List.zipWith (fun p q => (p - q * k) / k) (h2.at_ phase) c)
    let (h4, phase') := h3.new ((h3.at_ res).map (· * k))
    (h4, phase', res)

/-! ### Mirrors -/

/-- The arrays `dm_shape` and `dm_screen` of a mirror. -/
structure Dm where
  shape : ℕ
  screen : ℕ

/-- `DM.dmFrame` (DM.py:148-197): `makeDMFrame` makes a new array; if the mirror has the size of the screen, `dm_screen` becomes that array (185-186), otherwise the shape, cropped or padded (`put`; the border
keeps the zeros it has from the beginning), is written into `dm_screen` (188-195). -/
def dmFrame (fits : Bool) (put : List ℚ → List ℚ) (h : Heap) (d : Dm) (v : List ℚ) : Heap × Dm × ℕ :=
  let (h1, s) := h.new v
  if fits then (h1, ⟨s, s⟩, s) else (h1.set d.screen (put (h1.at_ s)), ⟨s, d.screen⟩, d.screen)

/-- `DM.reset` (DM.py:204-206). -/
def dmReset (h : Heap) (d : Dm) : Heap := zero h d.shape

/-! ### Cameras -/

/-- The arrays `detector` and `long_exp_image` of a camera. -/
structure Cam where
  detector : ℕ
  long : ℕ

/-- `PSFCamera.frame` (scienceinstrument.py:310-327): the image is written into `detector` (266, 272), which is returned; the long exposure is a new array (273). -/
def camFrame (h : Heap) (c : Cam) (v l : List ℚ) : Heap × Cam × ℕ :=
  let h1 := h.set c.detector v
  let (h2, p) := h1.new l
  (h2, ⟨c.detector, p⟩, c.detector)

/-- `PSFCamera.reset` (scienceinstrument.py:177-185). -/
def camReset (h : Heap) (c : Cam) : Heap := zero (zero h c.long) c.detector

/-! ### Sensors -/

/-- How a sensor keeps its measurements. -/
inductive Kind where
  -- ShackHartmann, ShackHartmannLegacy, Gradient: `self.slopes[:] = …` (shackhartmann.py:447, shackhartmann_legacy.py:460, gradient.py:151-152)
  | inPlace
  -- Pyramid, Zernike: `self.slopes = …` with a new array (pyramid.py:407-409, zernike.py:60)
  | anew
  deriving DecidableEq, Repr

/-- `WFS.frame` (wfs.py:395-466): the array of the measurements, or new zeros if the sensor is not read.  State: the place of `self.slopes`. -/
def wfsFrame (k : Kind) (n : ℕ) (h : Heap) (slopes : ℕ) (read : Bool) (v : List ℚ) : Heap × ℕ × ℕ :=
  if read then
    match k with
    | .inPlace => (h.set slopes v, slopes, slopes)
    | .anew => let (h1, s) := h.new v; (h1, s, s)
  else let (h1, z) := h.new (List.replicate n 0); (h1, slopes, z)

/-! ### Reconstructor -/

/-- `Reconstructor.reconstruct` (reconstruction.py:431-442): `actuator_values` is made at the first call (434-435), later changed in place (421-426) and returned.  `f` is `apply_gain` with the new measurements. -/
def reconstruct (n : ℕ) (h : Heap) (act : Option ℕ) (f : List ℚ → List ℚ) : Heap × Option ℕ × ℕ :=
  let (h1, a) := match act with
    | some a => (h, a)
    | none => h.new (List.replicate n 0)
  (h1.set a (f (h1.at_ a)), some a, a)

/-- `Reconstructor.reset` (reconstruction.py:444-446). -/
def reconReset (h : Heap) : Option ℕ → Heap
  | none => h
  | some a => zero h a

/-! ### Simulation -/

/-- `Sim.runWfs` (simulation.py:385-407): a new array (388) gets the measurements of the sensors. -/
def runWfs (h : Heap) (v : List ℚ) : Heap × ℕ := h.new v

/-- `Sim.runDM` (simulation.py:496-509): the shapes are written into `closed_correction` or `open_correction`, which is returned. -/
def runDM (h : Heap) (buf : ℕ) (v : List ℚ) : Heap × ℕ := (h.set buf v, buf)

/-! ### Histories -/

/-- Call a part again and again: `f` is one frame with input `x`; all results are kept, as in `for x in xs: results.append(part.frame(x))`. -/
def collect {σ ι : Type} (f : Heap → σ → ι → Heap × σ × ℕ) (h : Heap) (s : σ) : List ι → Heap × σ × List ℕ
  | [] => (h, s, [])
  | x :: xs =>
    let (h1, s1, r) := f h s x
    let (h2, s2, rs) := collect f h1 s1 xs
    (h2, s2, r :: rs)

/-- What the kept results hold afterwards. -/
def held {σ ι : Type} (f : Heap → σ → ι → Heap × σ × ℕ) (h : Heap) (s : σ) (xs : List ι) : List (List ℚ) :=
  let r := collect f h s xs
  r.2.2.map r.1.at_

end Soapy.Returned
