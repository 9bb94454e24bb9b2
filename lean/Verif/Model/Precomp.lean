/-
Model of the precompensation of a laser guide star (`lgs.precompensated`): which shape of the mirrors the laser of a sensor is launched through.

Arrays are references into a memory, because `WFS.frame` keeps a reference to the correction and `runDM` and `make_dm_iMat` change theirs in place.  One sensor is modelled; in the code the sensors do not share a laser.
Not in this model: `runWfs_MP`, which works on a copy of the sensor, see C07.
-/
import Verif.Model.Py

namespace Soapy.Precomp

/-- What matters of the configuration of a sensor with a laser: `lgs.precompensated`, `lgs.uplink`, and whether `self.elong != 0` (wfs.py:215-229). -/
structure Cfg where
  precompensated : Bool
  uplink : Bool
  elongated : Bool
  deriving DecidableEq

/-- Memory and the references that are kept: `mem` the arrays (one stack of mirror shapes each, type `C`), `size` how many were made, `closed` is `Sim.closed_correction` (simulation.py:297), `pre` is `lgs.precorrection` (LGS.py:70). -/
structure State (C : Type) where
  mem : ℕ → C
  size : ℕ
  closed : ℕ
  pre : Option ℕ

/-- What a frame does with shapes of the mirrors: `removed` is taken from the returning light, `launched` is what the laser goes up through: `none` if no laser spot is computed in this frame, `some none` if it goes up without mirrors. -/
structure Shown (C : Type) where
  removed : Option C
  launched : Option (Option C)
  deriving DecidableEq

variable {C : Type}

/-- A new array (`numpy.zeros(…)` or one of the user). -/
def alloc (s : State C) (v : C) : State C × ℕ := ({ s with mem := Function.update s.mem s.size v, size := s.size + 1 }, s.size)

/-- `array[:] = v` or `array[dm] = …`. -/
def write (s : State C) (r : ℕ) (v : C) : State C := { s with mem := Function.update s.mem r v }

/-- `Sim.aoinit`: a new correction buffer (simulation.py:297-299) and a new sensor with a new laser (simulation.py:215-232, LGS.py:70). -/
def aoinit (s : State C) (zero : C) : State C :=
  let (s, r) := alloc s zero
  { s with closed := r, pre := none }

/-- `WFS.frame(scrns, phase_correction)` of a sensor with a laser (wfs.py:424-445, 285-307): with elongation the layers are corrected in `makeElongationFrame` and the laser is not told; otherwise `performCorrection`, then
`self.lgs.precorrection = phase_correction`, where `self.lgs` is None without uplink (wfs.py:218-222).  After that, unless an interaction matrix is made, the laser goes up through `precorrection` (shackhartmann.py:365-366, 405; LGS.py:115-119). -/
def frame (c : Cfg) (s : State C) (corr : Option ℕ) (imat : Bool) : Except PyErr (State C × Shown C) :=
  let go (s : State C) : Except PyErr (State C × Shown C) :=
    .ok (s, ⟨corr.map s.mem, if c.uplink && !imat then some (s.pre.map s.mem) else none⟩)
  if c.elongated then go s else
  match corr with
  | none => go s
  | some r => if c.precompensated then (if c.uplink then go { s with pre := some r } else .error .attributeError) else go s

/-- The pokes of one mirror in `make_dm_iMat` (reconstruction.py:284-307): the same array is filled for each actuator. -/
def pokes (c : Cfg) (r : ℕ) : State C → List C → Except PyErr (State C × List (Shown C))
  | s, [] => .ok (s, [])
  | s, v :: vs =>
    match frame c (write s r v) (some r) true with
    | .error e => .error e
    | .ok (s, o) =>
      match pokes c r s vs with
      | .error e => .error e
      | .ok (s, os) => .ok (s, o :: os)

/-- What can happen between frames. -/
inductive Op (C : Type) where
  /-- `Sim.aoinit`. -/
  | aoinit (zero : C)
  /-- `make_dm_iMat` for a mirror with these shapes (reconstruction.py:268-307). -/
  | calibrate (zero : C) (shapes : List C)
  /-- A frame of `LearnAndApply.learn` (reconstruction.py:578), or any other without a correction. -/
  | learn
  /-- `Sim.loopFrame` with this shape of the closed-loop mirrors (simulation.py:555-560, 497-509). -/
  | loop (v : C)
  /-- `Sim.reset_loop` (simulation.py:650-674): sensors are not reset. -/
  | reset
  /-- A script makes an array of its own. -/
  | make (v : C)
  /-- A script changes an array. -/
  | change (r : ℕ) (v : C)
  /-- A script runs a frame of the sensor with an array as correction. -/
  | call (r : ℕ)

/-- One operation; the second result is what its frames show. -/
def step (c : Cfg) (s : State C) : Op C → Except PyErr (State C × List (Shown C))
  | .aoinit z => .ok (aoinit s z, [])
  | .calibrate z vs => let (s, r) := alloc s z; pokes c r s vs
  | .learn => (frame c s none false).map fun x => (x.1, [x.2])
  | .loop v => let s := write s s.closed v; (frame c s (some s.closed) false).map fun x => (x.1, [x.2])
  | .reset => .ok (s, [])
  | .make v => .ok ((alloc s v).1, [])
  | .change r v => .ok (write s r v, [])
  | .call r => (frame c s (some r) false).map fun x => (x.1, [x.2])

/-- A sequence of operations, with what the frames of each show. -/
def run (c : Cfg) : State C → List (Op C) → Except PyErr (State C × List (List (Shown C)))
  | s, [] => .ok (s, [])
  | s, op :: ops =>
    match step c s op with
    | .error e => .error e
    | .ok (s, o) =>
      match run c s ops with
      | .error e => .error e
      | .ok (s, os) => .ok (s, o :: os)

end Soapy.Precomp
