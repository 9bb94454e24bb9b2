/-
Model of the buttons of the GUI and the threads they start (`gui/gui.py:485-563, 628-697`): the user, the main thread of Qt and the worker threads take steps in any order.

Simplifications: what the threads compute is left out; a step is a piece of work on the simulation or a change of `sim.go`.  `QThread.quit()` does nothing to a thread without an event loop (the `run` methods
here have none), so in `stop` (541-559) only `sim.go = False` matters.  What Qt does when a thread object is replaced while it runs (529) is not modelled.  Interruption of `aoloop` from the keyboard is left out.
-/
import Mathlib.Data.Nat.Notation

namespace Soapy.GuiThreads

/-- A LoopThread (gui.py:676-697): before `self.go = True` (simulation.py:589), testing (591-592), in `loopFrame` (593), saving and finishing (601-603) and stopping (gui.py:692-693), ended. -/
inductive L where
  | starting | test | frame | ending | dead
  deriving DecidableEq, Repr

/-- An InitThread (gui.py:628-641): before the test of `sim.go` (638), in `aoinit` (641), ended. -/
inductive I where
  | waiting | initing | dead
  deriving DecidableEq, Repr

/-- An IMatThread (gui.py:647-667): in `makeIMat`, ended. -/
inductive M where
  | making | dead
  deriving DecidableEq, Repr

/-- The main thread: free for the next button, in `loopFrame` (518-520), in `reset_loop` (537-539). -/
inductive Main where
  | idle | frame | reset
  deriving DecidableEq, Repr

/-- `iters` is the frame counter of the simulation, `done` counts the frames completed by loop threads. -/
structure State where
  go : Bool
  iters : ℕ
  loops : List L
  inits : List I
  imats : List M
  main : Main
  done : ℕ
  deriving DecidableEq, Repr

/-- After `GUI.__init__` (104-178): `sim.go` is False (simulation.py:124) and the constructor has pressed Init (177). -/
def start : State := ⟨false, 0, [], [.waiting], [], .idle, 0⟩

/-- The buttons (gui.py:115-120). -/
inductive Button where
  | run | stop | init | iMat | frame | reset
  deriving DecidableEq, Repr

/-- What may happen next: a button is pressed, the main thread ends its work, a thread takes its next step, a frame of a loop thread raises. -/
inductive Act where
  | press (b : Button)
  | main
  | loop (i : ℕ)
  | init (i : ℕ)
  | imat (i : ℕ)
  | crash (i : ℕ)
  deriving DecidableEq, Repr

/-- A button pressed while the main thread is free. -/
def press (s : State) : Button → State
  -- `run` (522-535): a new LoopThread is started, whatever is running
  | .run => { s with loops := s.loops ++ [.starting] }
  -- `stop` (541-559)
  | .stop => { s with go := false }
  -- `init` (489-498)
  | .init => { s with inits := s.inits ++ [.waiting] }
  -- `iMat` (500-516): only if the last IMatThread is not running
  | .iMat => if s.imats.getLast? = some .making then s else { s with imats := s.imats ++ [.making] }
  | .frame => { s with main := .frame }
  | .reset => { s with main := .reset }

/-- One step for `nIters = n`; steps that are not possible change nothing. -/
def step (n : ℕ) (s : State) : Act → State
  | .press b => if s.main = .idle then press s b else s
  | .main =>
    match s.main with
    | .idle => s
    | .frame => { s with main := .idle, iters := s.iters + 1 }
    | .reset => { s with main := .idle, iters := 0 }
  | .loop i =>
    match s.loops[i]? with
    | some .starting => { s with go := true, loops := s.loops.set i .test }
    | some .test => { s with loops := s.loops.set i (if s.iters < n ∧ s.go = true then .frame else .ending) }
    | some .frame => { s with iters := s.iters + 1, done := s.done + 1, loops := s.loops.set i .test }
    | some .ending => { s with go := false, loops := s.loops.set i .dead }
    | _ => s
  | .crash i =>
    match s.loops[i]? with
    -- `except` (694-697)
    | some .frame => { s with go := false, loops := s.loops.set i .dead }
    | _ => s
  | .init i =>
    match s.inits[i]? with
    -- `if self.sim.go: self.guiObj.stop()` (638-639)
    | some .waiting => { s with go := false, inits := s.inits.set i .initing }
    -- `self.iters = 0` (simulation.py:303)
    | some .initing => { s with iters := 0, inits := s.inits.set i .dead }
    | _ => s
  | .imat i =>
    match s.imats[i]? with
    | some .making => { s with go := false, imats := s.imats.set i .dead }
    | _ => s

/-- An execution. -/
def exec (n : ℕ) (s : State) (acts : List Act) : State := acts.foldl (step n) s

end Soapy.GuiThreads
