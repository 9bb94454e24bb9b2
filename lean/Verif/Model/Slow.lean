/-
Model of sensors with an exposure time of several frames, as the loop sees them.

Simplifications: all sensors have the same exposure time, `e` times the loop time; measurements of one frame are given by a function `see`; what the exposure makes of the measurements of its frames is a weighted sum
(Shack-Hartmann sensor with field stop: their mean, see C134; gradient and pyramid sensor: the last one, see C135).
-/
import Verif.Model.Loop
import Verif.Model.Whole

namespace Soapy.Slow

open Soapy.Loop Soapy.Control

variable {V : Type}

/-- `runWfs` (simulation.py:391-405) for sensors that are read out every `e` frames: `int(loopTime * (loopIter + 1) / exposureTime) != wfsFrameNo` with `exposureTime = e * loopTime`, `wfsFrameNo` being the number of exposures so far (C05).
`see i corr m` is what measurement `m` would be in frame `i` if the frame were an exposure of its own, `w j` the weight of frame `j` of an exposure, `noise` what is added when the sensors are read (gradient.py:162-170, shackhartmann.py:452-458).
Frames that are not read return zeros (wfs.py:463-466). The state is what the exposure has collected so far. -/
def slowPlant (e nMeas : ℕ) (w : ℕ → ℚ) (see : ℕ → List V → ℕ → ℚ) (noise : ℕ → ℕ → ℚ) : Plant (ℕ → ℚ) V where
  sense := fun acc i corr =>
    let total : ℕ → ℚ := fun m => acc m + w (i % e) * see i corr m
    if (i + 1) / e ≠ i / e then .ok (fun _ => 0, (List.range nMeas).map fun m => total m + noise i m)
    else .ok (total, Vec.zeros nMeas)

/-- `runWfs` (simulation.py:391-405) for sensors of different speed: measurement `m` belongs to a sensor that is read out every `e m` frames and weights the frames of its exposure by `w m`. A sensor that is not read puts zeros where its measurements belong (wfs.py:463-466). -/
def speedsPlant (nMeas : ℕ) (e : ℕ → ℕ) (w : ℕ → ℕ → ℚ) (see : ℕ → List V → ℕ → ℚ) (noise : ℕ → ℕ → ℚ) : Plant (ℕ → ℚ) V where
  sense := fun acc i corr =>
    let total : ℕ → ℚ := fun m => acc m + w m (i % e m) * see i corr m
    .ok (fun m => if (i + 1) / e m ≠ i / e m then 0 else total m, (List.range nMeas).map fun m => if (i + 1) / e m ≠ i / e m then total m + noise i m else 0)

/-- A sensor that averages the frames of an exposure. -/
def meanOf (e : ℕ) (_ : ℕ) : ℚ := 1 / e

/-- A sensor that measures the last frame of an exposure. -/
def lastOf (e j : ℕ) : ℚ := if j + 1 = e then 1 else 0

end Soapy.Slow

namespace Soapy.Whole

/-- Atmosphere and sensors as in `plant`, with sensors that are read out every `e` frames (simulation.py:391-405, wfs.py:395-466): what measurement `m` would be in a single frame is what `plant` gives. -/
def Optics.slow (o : Optics) (e : ℕ) (w : ℕ → ℚ) (turb : ℕ → ℕ → ℕ → ℕ → ℚ) (noise : ℕ → ℕ → ℚ) : Loop.Plant (ℕ → ℚ) Stack :=
  Slow.slowPlant e o.totalMeas w (fun i corr m => match (o.plant turb).sense () i corr with | .ok (_, l) => l.getD m 0 | .error _ => 0) noise

end Soapy.Whole
