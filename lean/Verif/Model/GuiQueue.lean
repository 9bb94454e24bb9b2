/-
Model of the update queue between simulation and GUI (`simulation.py:1085-1159`, `gui/gui.py:272-285`).
-/
import Mathlib.Data.Nat.Notation

namespace Soapy.GuiQueue

/-- Where the simulation is in `addToGuiQueue`: testing `waitingPlot` (1098), about to lock (1151), to put (1153), to unlock (1157), to clear the request (1159). -/
inductive SimPc where
  | test | lock | put | unlock | clear
  deriving DecidableEq

/-- Where the GUI is in `update`: between polls (next: set `waitingPlot`, gui.py:275), about to lock (278), draining (280-281), about to unlock (285). -/
inductive GuiPc where
  | idle | lock | drain | unlock
  deriving DecidableEq

/-- Who holds `guiLock` / `updateLock` (the same mutex, gui.py:249). -/
inductive Holder where
  | none | sim | gui
  deriving DecidableEq

/-- `frame` is the number of the frame whose data would be put, `plot` the local variable `plotDict`, `shown` what the last poll displayed.  The rest are counters for the statements: requests, puts, the last frame put,
puts that raised `Full`, and whether a put happened for the latest request. -/
structure State where
  sim : SimPc
  gui : GuiPc
  lock : Holder
  waiting : Bool
  queue : List ℕ
  frame : ℕ
  plot : Option ℕ
  shown : Option ℕ
  requests : ℕ
  puts : ℕ
  last : Option ℕ
  full : ℕ
  served : Bool
  deriving DecidableEq

/-- After `initPlots` (gui.py:248-251). -/
def init : State := ⟨.test, .idle, .none, false, [], 0, .none, .none, 0, 0, .none, 0, true⟩

/-- One step of the simulation thread.  `cap` is the capacity of the queue (10, gui.py:153). If the queue is full the exception is caught and only reported (the mutex is then unlocked twice). -/
def simStep (cap : ℕ) (s : State) : State :=
  match s.sim with
  | .test => if s.waiting then { s with sim := .lock } else { s with frame := s.frame + 1 }
  | .lock => if s.lock = .none then { s with lock := .sim, sim := .put } else s
  | .put =>
    if s.queue.length < cap then
      { s with queue := s.queue ++ [s.frame], puts := s.puts + 1, last := some s.frame, served := true, sim := .unlock }
    else { s with full := s.full + 1, sim := .unlock }
  | .unlock => { s with lock := .none, sim := .clear }
  | .clear => { s with waiting := false, frame := s.frame + 1, sim := .test }

/-- One step of the GUI thread. -/
def guiStep (s : State) : State :=
  match s.gui with
  | .idle => { s with waiting := true, requests := s.requests + 1, plot := none, gui := .lock, served := decide (s.sim = .unlock ∨ s.sim = .clear) }
  | .lock => if s.lock = .none then { s with lock := .gui, gui := .drain } else s
  | .drain =>
    match s.queue with
    | [] => { s with gui := .unlock }
    | k :: q => { s with queue := q, plot := some k }
  | .unlock => { s with lock := .none, shown := s.plot, gui := .idle }

/-- Any interleaving: `true` is a step of the simulation, `false` one of the GUI. -/
def run (cap : ℕ) (s : State) (sched : List Bool) : State := sched.foldl (fun s b => if b then simStep cap s else guiStep s) s

end Soapy.GuiQueue
