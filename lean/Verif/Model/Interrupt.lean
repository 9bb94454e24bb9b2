/-
Model of a run that is interrupted: `Sim.loopFrame` statement by statement, `Sim.aoloop` with the
`KeyboardInterrupt` it catches.
-/
import Verif.Model.Loop

namespace Soapy.Interrupt

open Soapy.Vec Soapy.Control Soapy.Loop

/-- The parts of a simulation outside the control loop, one by one: `atmos.moveScrns` (simulation.py:539), `runWfs`
(simulation.py:559-560) and `runSciCams` (simulation.py:569).  `α`, `σ`, `κ` are the states of the atmosphere, the sensors and the
science cameras. -/
structure Parts (α σ κ Scr Surf : Type) where
  move : α → α × Scr
  sense : σ → ℕ → Scr → List Surf → Except PyErr (σ × List ℚ)
  look : κ → Scr → List Surf → κ

/-- The attributes of the simulation object that `loopFrame` writes (simulation.py:531-579). -/
structure St (α σ κ Scr Surf : Type) where
  atmos : α
  scrns : Option Scr
  recon : Recon
  dmCommands : List ℚ
  buffer : List (List ℚ)
  closedCorr : List Surf
  sensors : σ
  slopes : List ℚ
  openCorr : List Surf
  combined : List Surf
  cams : κ
  allSlopes : List (List ℚ)
  allDmCommands : List (List ℚ)
  iters : ℕ

variable {α σ κ Scr Surf : Type} [Add Surf]

/-- `self.scrns = self.atmos.moveScrns()` (simulation.py:539). -/
def move (p : Parts α σ κ Scr Surf) (s : St α σ κ Scr Surf) : Except PyErr (St α σ κ Scr Surf) :=
  .ok { s with atmos := (p.move s.atmos).1, scrns := some (p.move s.atmos).2 }

/-- `self.dmCommands[:] = self.recon.reconstruct(self.slopes)` if there are mirrors (simulation.py:547-548). -/
def recon (sys : Sys Surf) (dms : List DmCtl) (s : St α σ κ Scr Surf) : Except PyErr (St α σ κ Scr Surf) :=
  if dms.length = 0 then .ok s
  else
    match reconstruct dms ((dms.map DmCtl.nValid).sum) sys.product s.recon s.slopes with
    | .error e => .error e
    | .ok (r, new) =>
      if new.length = s.dmCommands.length then .ok { s with recon := r, dmCommands := new } else .error .valueError

/-- `self.dmCommands = self.buffer.delay(self.dmCommands, loopDelay)` (simulation.py:552). -/
def delay (sys : Sys Surf) (s : St α σ κ Scr Surf) : Except PyErr (St α σ κ Scr Surf) :=
  match Delay.delay zeroLike s.buffer s.dmCommands sys.loopDelay with
  | .error e => .error e
  | .ok (buffer, out) => .ok { s with buffer := buffer, dmCommands := out }

/-- `self.closed_correction = self.runDM(self.dmCommands, closed=True)` (simulation.py:555-556). -/
def closed (sys : Sys Surf) (dms : List DmCtl) (s : St α σ κ Scr Surf) : Except PyErr (St α σ κ Scr Surf) :=
  match runDM sys.surface true s.dmCommands 0 dms (firstActs dms 0) s.closedCorr with
  | .error e => .error e
  | .ok c => .ok { s with closedCorr := c }

/-- `self.slopes = self.runWfs(dmShape=self.closed_correction, loopIter=self.iters)` (simulation.py:559-560). -/
def wfs (p : Parts α σ κ Scr Surf) (s : St α σ κ Scr Surf) : Except PyErr (St α σ κ Scr Surf) :=
  match s.scrns with
  | none => .error .attributeError
  | some scr =>
    match p.sense s.sensors s.iters scr s.closedCorr with
    | .error e => .error e
    | .ok (x, slopes) => .ok { s with sensors := x, slopes := slopes }

/-- `self.open_correction = self.runDM(self.dmCommands, closed=False)` (simulation.py:563-564). -/
def opened (sys : Sys Surf) (dms : List DmCtl) (s : St α σ κ Scr Surf) : Except PyErr (St α σ κ Scr Surf) :=
  match runDM sys.surface false s.dmCommands 0 dms (firstActs dms 0) s.openCorr with
  | .error e => .error e
  | .ok c => .ok { s with openCorr := c }

/-- `self.combinedCorrection = self.open_correction + self.closed_correction` (simulation.py:567). -/
def combine (s : St α σ κ Scr Surf) : Except PyErr (St α σ κ Scr Surf) :=
  .ok { s with combined := List.zipWith (· + ·) s.openCorr s.closedCorr }

/-- `self.runSciCams(self.combinedCorrection)` (simulation.py:569). -/
def science (p : Parts α σ κ Scr Surf) (s : St α σ κ Scr Surf) : Except PyErr (St α σ κ Scr Surf) :=
  match s.scrns with
  | none => .error .attributeError
  | some scr => .ok { s with cams := p.look s.cams scr s.combined }

/-- `self.storeData(self.iters % nIters)` (simulation.py:572-573): measurements and commands.  One statement here: an interrupt
between the two records is not modelled. -/
def store (sys : Sys Surf) (s : St α σ κ Scr Surf) : Except PyErr (St α σ κ Scr Surf) :=
  if sys.nIters = 0 then .error .zeroDivisionError
  else
    match storeRow sys.saveSlopes s.allSlopes (s.iters % sys.nIters) s.slopes with
    | .error e => .error e
    | .ok a =>
      match storeRow sys.saveDmCommands s.allDmCommands (s.iters % sys.nIters) s.dmCommands with
      | .error e => .error e
      | .ok b => .ok { s with allSlopes := a, allDmCommands := b }

/-- `self.printOutput(...)`, `self.addToGuiQueue()` (simulation.py:575-577): they only read. -/
def report (s : St α σ κ Scr Surf) : Except PyErr (St α σ κ Scr Surf) := .ok s

/-- `self.iters += 1` (simulation.py:579). -/
def count (s : St α σ κ Scr Surf) : Except PyErr (St α σ κ Scr Surf) := .ok { s with iters := s.iters + 1 }

/-- The statements of `loopFrame` (simulation.py:531-579) in order.  The timers are left out. -/
def steps (sys : Sys Surf) (p : Parts α σ κ Scr Surf) (dms : List DmCtl) :
    List (St α σ κ Scr Surf → Except PyErr (St α σ κ Scr Surf)) :=
  [move p, recon sys dms, delay sys, closed sys dms, wfs p, opened sys dms, combine, science p, store sys, report, count]

/-- Statements one after the other. -/
def exec : List (St α σ κ Scr Surf → Except PyErr (St α σ κ Scr Surf)) → St α σ κ Scr Surf →
    Except PyErr (St α σ κ Scr Surf)
  | [], s => .ok s
  | f :: fs, s =>
    match f s with
    | .error e => .error e
    | .ok s' => exec fs s'

/-- One call of `loopFrame`: `none` runs it to its end, `some k` is a `KeyboardInterrupt` after `k` of its statements, which
`aoloop` catches (simulation.py:598-600; a statement with a call is taken as a whole).  What `aoloop` does after that — save and
print — does not write these attributes. -/
def frame (sys : Sys Surf) (p : Parts α σ κ Scr Surf) (dms : List DmCtl) (cut : Option ℕ) (s : St α σ κ Scr Surf) :
    Except PyErr (St α σ κ Scr Surf) :=
  match cut with
  | none => exec (steps sys p dms) s
  | some k => exec ((steps sys p dms).take k) s

/-- Calls of `loopFrame` one after the other; after an interrupted one the user calls `aoloop` again, which goes on from
`self.iters` (simulation.py:590-595). -/
def run (sys : Sys Surf) (p : Parts α σ κ Scr Surf) (dms : List DmCtl) : List (Option ℕ) → St α σ κ Scr Surf →
    Except PyErr (St α σ κ Scr Surf)
  | [], s => .ok s
  | c :: cs, s =>
    match frame sys p dms c s with
    | .error e => .error e
    | .ok s' => run sys p dms cs s'

end Soapy.Interrupt
