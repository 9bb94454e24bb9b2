/-
Model of the decision when a wavefront sensor is read out.
-/
import Verif.Model.Py

namespace Soapy.Exposure

/-- `int(float(loopTime*(loopIter+1)) / exposureTime)` (simulation.py:394-395) in exact
arithmetic; `T` is the loop time and `E` the exposure time.  `E = 0` (ZeroDivisionError) is
excluded by the theorems. -/
def quant (T E : ℚ) (loopIter : ℕ) : ℤ := pyInt (T * ((loopIter : ℚ) + 1) / E)

/-- The comparison and increment of `wfsFrameNo[nwfs]` (simulation.py:394-400).  `q` is the value
of the quantised time, the result is the new frame number and the read flag. -/
def readStep (q frameNo : ℤ) : ℤ × Bool :=
  if q ≠ frameNo then (frameNo + 1, true) else (frameNo, false)

/-- `runWfs_noMP` for one sensor (simulation.py:391-400).  With `loopIter=None` the expression
`loopIter+1` raises `TypeError` (although the doc string promises that all sensors are read). -/
def decideNoMP (q : ℕ → ℤ) (loopIter : Option ℕ) (frameNo : ℤ) : Except PyErr (ℤ × Bool) :=
  match loopIter with
  | none => .error .typeError
  | some i => .ok (readStep (q i) frameNo)

/-- `runWfs_MP` for one sensor (simulation.py:444-455).  `if loopIter:` is false for `None` and
for 0. -/
def decideMP (q : ℕ → ℤ) (loopIter : Option ℕ) (frameNo : ℤ) : Except PyErr (ℤ × Bool) :=
  match loopIter with
  | some (i + 1) => .ok (readStep (q (i + 1)) frameNo)
  | _ => .ok (frameNo, true)

/-- Runs frames `start, start+1, …` (`n` of them) of one sensor, as successive `loopFrame` calls do
(simulation.py:559-560,579).  Returns the final frame number and the read flags. -/
def runFrames (decide : Option ℕ → ℤ → Except PyErr (ℤ × Bool)) :
    ℕ → ℕ → ℤ → Except PyErr (ℤ × List Bool)
  | _, 0, f => .ok (f, [])
  | start, n + 1, f =>
    match decide (some start) f with
    | .error e => .error e
    | .ok (f', r) =>
      match runFrames decide (start + 1) n f' with
      | .error e => .error e
      | .ok (f'', rs) => .ok (f'', r :: rs)

/-- A fresh simulation: `wfsFrameNo = zeros(nGS)`, `iters = 0` (simulation.py:200,303). -/
def freshRun (decide : Option ℕ → ℤ → Except PyErr (ℤ × Bool)) (n : ℕ) :
    Except PyErr (ℤ × List Bool) := runFrames decide 0 n 0

/-- `n₁` frames, `reset_loop` (sets `iters = 0`, keeps `wfsFrameNo`; simulation.py:650-674), then
`n₂` frames.  Returns the read flags of the frames after the reset. -/
def runResetRun (decide : Option ℕ → ℤ → Except PyErr (ℤ × Bool)) (n₁ n₂ : ℕ) :
    Except PyErr (List Bool) :=
  match freshRun decide n₁ with
  | .error e => .error e
  | .ok (f, _) =>
    match runFrames decide 0 n₂ f with
    | .error e => .error e
    | .ok (_, rs) => .ok rs

end Soapy.Exposure
