/-
Model of the command delay buffer and of the way the loop uses it.
-/
import Verif.Model.Py

namespace Soapy.Delay

variable {α : Type*}

/-- `for _ in range(k): result = self.pop(0)` (simulation.py:1250-1251).
`pop(0)` on an empty list raises `IndexError`. -/
def popLoop : ℕ → List α → Option α → Except PyErr (List α × Option α)
  | 0, buf, r => .ok (buf, r)
  | _ + 1, [], _ => .error .indexError
  | k + 1, x :: buf, _ => popLoop k buf (some x)

/-- `DelayBuffer.delay(value, count)` (simulation.py:1245-1252).
`zeroLike v` stands for `v*0.0`.  The count is an arbitrary Python int; a float count
(`TypeError` in `range`) is not modelled. -/
def delay (zeroLike : α → α) (buf : List α) (value : α) (count : ℤ) :
    Except PyErr (List α × α) :=
  let buf := buf ++ [value]
  if (buf.length : ℤ) ≤ count then
    .ok (buf, zeroLike value)
  else
    match popLoop ((buf.length : ℤ) - count).toNat buf none with
    | .error e => .error e
    | .ok (buf', some r) => .ok (buf', r)
    | .ok (_, none) => .error .unboundLocalError

/-- A sequence of calls `buffer.delay(value, count)` on one buffer, as made by successive
`loopFrame` calls (simulation.py:552).  Returns the final buffer and the list of results. -/
def runDelay (zeroLike : α → α) : List α → List (α × ℤ) → Except PyErr (List α × List α)
  | buf, [] => .ok (buf, [])
  | buf, (v, c) :: calls =>
    match delay zeroLike buf v c with
    | .error e => .error e
    | .ok (buf', r) =>
      match runDelay zeroLike buf' calls with
      | .error e => .error e
      | .ok (buf'', rs) => .ok (buf'', r :: rs)

/-! ### Object level: arrays are mutable objects -/

/-- The part of the simulation object that concerns commands, with numpy arrays as heap objects:
`live` is the object bound to `sim.dmCommands`, `buf` the objects stored in `sim.buffer`,
`next` the next unused object identity. -/
structure HState (V : Type*) where
  heap : ℕ → V
  next : ℕ
  live : ℕ
  buf : List ℕ

variable {V : Type*}

/-- In-place assignment `a[:] = v` on the object `r`. -/
def HState.write (s : HState V) (r : ℕ) (v : V) : HState V :=
  { s with heap := fun i => if i = r then v else s.heap i }

/-- The operations of the simulation that touch the command array or the buffer. -/
inductive HOp (V : Type*) where
  /-- `loopFrame`: `dmCommands[:] = recon.reconstruct(slopes)` and then
  `dmCommands = buffer.delay(dmCommands, loopDelay)` (simulation.py:547-552).
  (With `nDM == 0` the write is skipped and the vectors are empty; not modelled.) -/
  | frame (v : V) (count : ℤ)
  /-- `reset_loop`: `dmCommands[:] = 0` (simulation.py:657); the buffer is not touched. -/
  | reset
  /-- `makeIMat`: `dmCommands = numpy.zeros(totalActs)` (simulation.py:358). -/
  | makeIMat (z : V)

/-- The delay call on objects: as `delay`, but `value*0.0` allocates a new array whose content is
computed from the current content of the argument. -/
def HState.delayCall (zeroLike : V → V) (s : HState V) (count : ℤ) : Except PyErr (HState V) :=
  let buf := s.buf ++ [s.live]
  if (buf.length : ℤ) ≤ count then
    let s' := s.write s.next (zeroLike (s.heap s.live))
    .ok { s' with next := s.next + 1, live := s.next, buf := buf }
  else
    match popLoop ((buf.length : ℤ) - count).toNat buf none with
    | .error e => .error e
    | .ok (buf', some r) => .ok { s with live := r, buf := buf' }
    | .ok (_, none) => .error .unboundLocalError

/-- One operation.  The output is the content of the command array handed to the mirrors
(`runDM(self.dmCommands, …)`, simulation.py:555,563) for frame operations. -/
def HState.step (zeroLike : V → V) (s : HState V) : HOp V → Except PyErr (HState V × Option V)
  | .frame v c =>
    match (s.write s.live v).delayCall zeroLike c with
    | .error e => .error e
    | .ok s' => .ok (s', some (s'.heap s'.live))
  | .reset => .ok (s.write s.live (zeroLike (s.heap s.live)), none)
  | .makeIMat z =>
    let s' := s.write s.next z
    .ok ({ s' with next := s.next + 1, live := s.next }, none)

/-- Runs a list of operations, collecting what the mirrors receive. -/
def HState.run (zeroLike : V → V) : HState V → List (HOp V) → Except PyErr (HState V × List V)
  | s, [] => .ok (s, [])
  | s, op :: ops =>
    match s.step zeroLike op with
    | .error e => .error e
    | .ok (s', o) =>
      match s'.run zeroLike ops with
      | .error e => .error e
      | .ok (s'', os) => .ok (s'', match o with | some v => v :: os | none => os)

/-- State after `aoinit`: `dmCommands = numpy.zeros(totalActs)`, `buffer = DelayBuffer()`
(simulation.py:301-302). -/
def HState.init (z : V) : HState V :=
  { heap := fun _ => z, next := 1, live := 0, buf := [] }

end Soapy.Delay
