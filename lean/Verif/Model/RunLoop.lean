/-
Model of `Sim.aoloop` (`simulation.py:582-603`) and of the logger (`logger.py`).
-/
import Verif.Model.Py

namespace Soapy.RunLoop

/-- How one `loopFrame` ends.  `ok go`: completed, `self.go` being `go` afterwards (the GUI may clear it at any time, gui.py:541-542); interrupted by the user or failed before `self.iters += 1` (579). -/
inductive Outcome where
  | ok (go : Bool)
  | interrupt
  | error (e : PyErr)
  deriving DecidableEq

/-- What is of interest afterwards: the frame counter, completed frames in order, how often `saveData` ran. -/
structure State where
  iters : ℕ
  done : List ℕ
  saves : ℕ
  go : Bool
  deriving DecidableEq

/-- The `while` loop (591-595), including the `except KeyboardInterrupt` (596-598); `nature i` is the outcome of frame `i`. `fuel` is the number of loop iterations this model is prepared to execute. -/
def whileLoop (n : ℕ) (nature : ℕ → Outcome) : ℕ → State → Except PyErr State
  | 0, s => .ok s
  | fuel + 1, s =>
    if s.iters < n then
      if s.go then
        match nature s.iters with
        | .ok g => whileLoop n nature fuel { s with iters := s.iters + 1, done := s.done ++ [s.iters], go := g }
        | .interrupt => .ok { s with go := false }
        | .error e => .error e
      else .ok s
    else .ok s

/-- `aoloop` (582-603); `n` is `nIters`.  `finishUp` evaluates `self.iters % nIters` (682) and so raises for `nIters = 0`. -/
def aoloop (n : ℕ) (nature : ℕ → Outcome) (s : State) : Except PyErr State :=
  match whileLoop n nature (n - s.iters) { s with go := true } with
  | .error e => .error e
  | .ok s => if n = 0 then .error .zeroDivisionError else .ok { s with saves := s.saves + 1 }

/-! ### Logger -/

/-- `_printMessage(message, level)` (logger.py:81-103): is the message shown when the logging level is `lvl`? -/
def shown (lvl level : ℤ) : Bool := decide (level ≤ lvl)

/-- The public functions and the level they pass (logger.py:105-142); the default of `_printMessage` is 3. -/
inductive Fn where
  | print_ | info | debug | warning
  deriving DecidableEq

def Fn.level : Fn → ℤ
  | .print_ => 3
  | .info => 2
  | .debug => 3
  | .warning => 1

/-- A run of calls: `setLoggingLevel` (45-57) or a message. -/
inductive Call where
  | set (lvl : ℤ)
  | log (f : Fn) (msg : String)

/-- Messages shown by a run of calls, starting at level `lvl` (41: initially 1). -/
def logRun : ℤ → List Call → List String
  | _, [] => []
  | _, .set l :: cs => logRun l cs
  | lvl, .log f m :: cs => if shown lvl f.level then m :: logRun lvl cs else logRun lvl cs

end Soapy.RunLoop
