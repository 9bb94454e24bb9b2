/-
Model of running the loop in a thread (`simulation.py:606-647`) as a machine in which callers and loop threads take steps in any order.
-/
import Mathlib.Logic.Function.Basic
import Mathlib.Data.Nat.Notation

namespace Soapy.Threads

/-- A loop thread: not yet started, about to test `while self._sim_running`, computing a frame, ended. -/
inductive T where
  | new | ready | inFrame | dead
  deriving DecidableEq

/-- Where a caller of `start_aoloop_thread` / `stop_aoloop_thread` is: the line to be executed next. -/
inductive Pc where
  | idle
  /-- simulation.py:615 -/
  | create
  /-- simulation.py:618 -/
  | flag
  /-- simulation.py:619 -/
  | launch
  /-- simulation.py:633 -/
  | clear
  /-- simulation.py:635, evaluation of `self._loop_thread` -/
  | fetch
  /-- simulation.py:635, waiting for thread `t` -/
  | joining (t : ℕ)
  /-- simulation.py:638-639 -/
  | saving
  deriving DecidableEq

/-- Threads are numbered in the order of creation; `count` have been created and `_loop_thread` is `cur`. `starts` and `saves` count executions of lines 618 and 638. -/
structure State where
  running : Bool
  threads : ℕ → T
  count : ℕ
  cur : ℕ
  pcs : ℕ → Pc
  starts : ℕ
  saves : ℕ

/-- Before the first start. -/
def init : State := ⟨false, fun _ => .dead, 0, 0, fun _ => .idle, 0, 0⟩

/-- What may happen next: caller `c` calls start or stop or executes its next line; thread `t` takes its next step, or its frame raises. -/
inductive Act where
  | start (c : ℕ)
  | stop (c : ℕ)
  | line (c : ℕ)
  | loop (t : ℕ)
  | crash (t : ℕ)

/-- Caller `c` goes on to `p`. -/
def State.goto (s : State) (c : ℕ) (p : Pc) : State := { s with pcs := Function.update s.pcs c p }

/-- Thread `t` becomes `x`. -/
def State.thread (s : State) (t : ℕ) (x : T) : State := { s with threads := Function.update s.threads t x }

/-- One step; steps that are not possible (waiting in `join`, caller busy, thread not running) change nothing. -/
def step (s : State) : Act → State
  -- `if self._sim_running is False` (614)
  | .start c => if s.pcs c = .idle ∧ s.running = false then s.goto c .create else s
  -- `if self._sim_running` (631)
  | .stop c => if s.pcs c = .idle ∧ s.running = true then s.goto c .clear else s
  | .line c =>
    match s.pcs c with
    | .idle => s
    | .create => { s with threads := Function.update s.threads s.count .new, cur := s.count, count := s.count + 1 }.goto c .flag
    | .flag => { s with running := true, starts := s.starts + 1 }.goto c .launch
    -- a thread can be started only once (`RuntimeError` otherwise: the call is over)
    | .launch => if s.threads s.cur = .new then (s.thread s.cur .ready).goto c .idle else s.goto c .idle
    | .clear => { s with running := false }.goto c .fetch
    | .fetch => s.goto c (.joining s.cur)
    | .joining t => if s.threads t = .dead then s.goto c .saving else if s.threads t = .new then s.goto c .idle else s
    | .saving => { s with saves := s.saves + 1 }.goto c .idle
  | .loop t =>
    match s.threads t with
    | .ready => if s.running then s.thread t .inFrame else s.thread t .dead
    | .inFrame => s.thread t .ready
    | _ => s
  | .crash t => if s.threads t = .inFrame then s.thread t .dead else s

/-- An execution. -/
def run (s : State) (as : List Act) : State := as.foldl step s

end Soapy.Threads
