/-
Model of what a simulation records and leaves on disk: the histories of `storeData`, the frames of the sensors, and the directories of runs.
-/
import Verif.Model.Py
import Mathlib.Logic.Function.Basic

namespace Soapy.Archive

/-! ### Histories -/

/-- The arrays with one row for each frame (simulation.py:733-801): `allSlopes`, `allDmCommands`, `lgsPsfs`, `instStrehl`, `longStrehl`, `WFE`, `sciPhase`, `sciImgsInst`, `scieFieldInst`. -/
inductive Hist where
  | slopes | dmCommands | lgsPsfs | instStrehl | longStrehl | wfe | sciPhase | sciImgsInst | scieField
  deriving DecidableEq

/-- Made with `numpy.zeros` (simulation.py:735-742, 759, 768, 793, 801), the others with `numpy.empty` (simulation.py:751, 779). -/
def Hist.zeroed : Hist → Bool
  | .lgsPsfs | .sciPhase => false
  | _ => true

/-- Cleared by `reset_loop` (simulation.py:659-668). -/
def Hist.cleared : Hist → Bool
  | .slopes | .dmCommands | .longStrehl => true
  | _ => false

/-- Options: `sim.nIters`, what is recorded (`sim.saveSlopes` and so on; the three of the science cameras always), `sim.nGS`, and whether the sensors' frames are saved (`sim.saveWfsFrames` with `sim.simName`). -/
structure Opts where
  nIters : ℕ
  on : Hist → Bool
  nGS : ℕ
  wfsFrames : Bool

/-- The histories, `self.iters`, and the files `wfsFPFrames/wfs-%d_frame-%d.fits`. Simplification: one camera, one laser; every row a value of `α`. -/
structure State (α β : Type) where
  hist : Hist → List α
  iters : ℕ
  files : ℕ → ℕ → Option β

variable {α β : Type}

/-- `initSaveData` (simulation.py:701-801); `junk` is what `numpy.empty` finds in memory. The directory is new (see below), so there are no files. -/
def init [Zero α] (o : Opts) (junk : Hist → ℕ → α) : State α β where
  hist h := (List.range o.nIters).map fun j => if h.zeroed then 0 else junk h j
  iters := 0
  files _ _ := none

/-- Row `i` of a history is written, if it is recorded. -/
def put (o : Opts) (h : Hist) (i : ℕ) (x : α) (s : State α β) : State α β :=
  if o.on h then { s with hist := Function.update s.hist h ((s.hist h).set i x) } else s

/-- The loop over the sensors in `storeData` (simulation.py:844-850) from sensor `w` on: `fits.writeto` without `overwrite` raises `OSError` if the file is there. -/
def putFrames (i : ℕ) (planes : ℕ → β) : ℕ → ℕ → State α β → State α β × Option PyErr
  | _, 0, s => (s, none)
  | w, k + 1, s =>
    match s.files w i with
    | some _ => (s, some .ioError)
    | none => putFrames i planes (w + 1) k { s with files := Function.update s.files w (Function.update (s.files w) i (some (planes w))) }

/-- `storeData` (simulation.py:804-861) in the order of the lines, with `i = iters % nIters`; the electric field is written to row `self.iters` (simulation.py:861), `IndexError` after the last row. -/
def storeData (o : Opts) (v : Hist → α) (planes : ℕ → β) (s : State α β) : State α β × Option PyErr :=
  let i := s.iters % o.nIters
  let s := [Hist.slopes, .dmCommands, .lgsPsfs, .instStrehl, .longStrehl, .wfe, .sciPhase].foldl (fun s h => put o h i (v h) s) s
  match if o.wfsFrames then putFrames i planes 0 o.nGS s else (s, none) with
  | (s, some e) => (s, some e)
  | (s, none) =>
    let s := put o .sciImgsInst i (v .sciImgsInst) s
    if o.on .scieField ∧ o.nIters ≤ s.iters then (s, some .indexError)
    else (put o .scieField s.iters (v .scieField) s, none)

/-- The end of `loopFrame` (simulation.py:571-579): `iters % 0` raises; if `storeData` raises, `iters` stays. -/
def frame (o : Opts) (v : Hist → α) (planes : ℕ → β) (s : State α β) : State α β × Option PyErr :=
  if o.nIters = 0 then (s, some .zeroDivisionError)
  else match storeData o v planes s with
    | (s, some e) => (s, some e)
    | (s, none) => ({ s with iters := s.iters + 1 }, none)

/-- `reset_loop` (simulation.py:650-674). -/
def reset [Zero α] (s : State α β) : State α β :=
  { s with iters := 0, hist := fun h => if h.cleared then (s.hist h).map fun _ => 0 else s.hist h }

/-- What a user does: frames, with what there is to record in them, and resets. -/
inductive Ev (α β : Type) where
  | frame (v : Hist → α) (planes : ℕ → β)
  | reset

/-- One event. -/
def step [Zero α] (o : Opts) (s : State α β) : Ev α β → State α β × Option PyErr
  | .frame v p => frame o v p s
  | .reset => (reset s, none)

/-- Events one after the other, whether or not they raise; all exceptions. -/
def run [Zero α] (o : Opts) : State α β → List (Ev α β) → State α β × List (Option PyErr)
  | s, [] => (s, [])
  | s, e :: es => let r := step o s e; let q := run o r.1 es; (q.1, r.2 :: q.2)

/-- `fits.getdata` of frame `i` of sensor `w`. -/
def readFrame (w : ℕ) (s : State α β) (i : ℕ) : Except PyErr β :=
  match s.files w i with
  | some b => .ok b
  | none => .error .ioError

/-- The cube of the frames of sensor `w` in `saveData` (simulation.py:955-973): frame 0 is read in any case, then 1 … `iters - 1`; `wfs_cube[0]` of an empty cube raises `IndexError`. -/
def cube (w : ℕ) (s : State α β) : Except PyErr (List β) :=
  match readFrame w s 0 with
  | .error e => .error e
  | .ok _ => if s.iters = 0 then .error .indexError else (List.range s.iters).mapM (readFrame w s)

end Soapy.Archive

namespace Soapy.Dirs

/-! ### Directories of runs -/

/-- A path by its components; names are numbers. -/
abbrev Path := List ℕ

/-- Where a process is in `initSaveData`; `r` is the number of the run. `top` comes when `os.mkdir(self.path)` has raised. -/
inductive Pc where
  | idle
  | asleep (r : ℕ) (stamp : ℕ) (until_ : ℕ)
  | mkPath (r : ℕ) (stamp : ℕ)
  | mkTop (r : ℕ) (stamp : ℕ)
  | mkAgain (r : ℕ) (stamp : ℕ)
  | live (r : ℕ) (dir : Path)
  | failed
  deriving DecidableEq

/-- Clock, directories with the run that made them, files with the run that wrote them last, the processes, and the number of runs so far. -/
structure State (δ : Type) where
  now : ℕ
  dirs : Path → Option ℕ
  files : Path → Option (ℕ × δ)
  pcs : ℕ → Pc
  runs : ℕ

/-- What may happen next: time passes, process `p` starts a run (`aoinit`), goes on in `initSaveData`, writes a file of its run, ends the run (or is killed). -/
inductive Act (δ : Type) where
  | tick
  | start (p : ℕ)
  | line (p : ℕ)
  | write (p : ℕ) (name : ℕ) (d : δ)
  | stop (p : ℕ)

variable {δ : Type}

/-- `os.mkdir`: raises if the path is there or its parent is not. -/
def mkdir (r : ℕ) (q : Path) (s : State δ) : Option (State δ) :=
  if (s.dirs q).isNone ∧ (s.dirs q.dropLast).isSome ∧ q ≠ [] then some { s with dirs := Function.update s.dirs q (some r) } else none

/-- Process `p` goes on to `c`. -/
def State.goto (s : State δ) (p : ℕ) (c : Pc) : State δ := { s with pcs := Function.update s.pcs p c }

/-- One step. `name p` is `sim.simName` of process `p`, `fmt` makes the time stamp from seconds (simulation.py:1048-1057), of which the clock counts `K` parts.
Lines 709-719: the stamp is taken, `time.sleep(1)`, `os.mkdir(path)`; if that raises `os.mkdir(simName)` and `os.mkdir(path)` again. -/
def step (K : ℕ) (fmt : ℕ → ℕ) (name : ℕ → Path) (s : State δ) : Act δ → State δ
  | .tick => { s with now := s.now + 1 }
  | .start p => if s.pcs p = .idle then { s with runs := s.runs + 1 }.goto p (.asleep s.runs (fmt (s.now / K)) (s.now + K)) else s
  | .line p =>
    match s.pcs p with
    | .asleep r t u => if u ≤ s.now then s.goto p (.mkPath r t) else s
    | .mkPath r t =>
      match mkdir r (name p ++ [t]) s with
      | some s' => s'.goto p (.live r (name p ++ [t]))
      | none => s.goto p (.mkTop r t)
    | .mkTop r t =>
      match mkdir r (name p) s with
      | some s' => s'.goto p (.mkAgain r t)
      | none => s.goto p .failed
    | .mkAgain r t =>
      match mkdir r (name p ++ [t]) s with
      | some s' => s'.goto p (.live r (name p ++ [t]))
      | none => s.goto p .failed
    | _ => s
  -- `fits.writeto(self.path + name, ..., overwrite=True)` (simulation.py:886-973)
  | .write p f d =>
    match s.pcs p with
    | .live r q => { s with files := Function.update s.files (q ++ [f]) (some (r, d)) }
    | _ => s
  | .stop p =>
    match s.pcs p with
    | .failed => s
    | _ => s.goto p .idle

/-- An execution. -/
def exec (K : ℕ) (fmt : ℕ → ℕ) (name : ℕ → Path) (s : State δ) (as : List (Act δ)) : State δ := as.foldl (step K fmt name) s

end Soapy.Dirs
