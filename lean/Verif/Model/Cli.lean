/-
Model of the start script (`bin/soapy`) and of what it and `Sim.aoinit` do to the logger (`logger.py`).
-/
import Mathlib.Data.Int.Notation
import Mathlib.Data.List.Basic

namespace Soapy.Cli

/-- A value of `verbosity`: a number, or text as the command line delivers it (bin/soapy:55-57: no `type`, so `-V 3` is the string `'3'`). -/
inductive Verb where
  | num (n : ℤ)
  | text (s : String)
  deriving DecidableEq

/-- A call of `logger.info`, `debug`, `warning` or `print_` (logger.py:105-142): the level it passes, the place it is called from and the text. -/
structure Msg where
  level : ℤ
  place : String
  text : String
  deriving DecidableEq

/-- What a program does to the logger: messages and settings. -/
inductive Act where
  | level (v : Verb)
  | file (f : Option String)
  | say (m : Msg)

/-- The logger (logger.py:41-43), the terminal and the files: `printed` is the terminal, `written` the lines added to files, oldest first. -/
structure Log where
  level : Verb
  file : Option String
  printed : List String
  written : List (String × String)
  deriving DecidableEq

/-- The logger after `import soapy` (logger.py:41-42). -/
def fresh : Log := ⟨.num 1, none, [], []⟩

/-- `calframe[2][1].split("/")[-1]+" -> "+calframe[2][3] + ": " + message` (logger.py:91-94). -/
def dressed (lvl : ℤ) (m : Msg) : String :=
  if 2 < lvl ∨ m.level = 1 then m.place ++ ": " ++ m.text else m.text

/-- `COLOURS[level]` (logger.py:37); the escape sequences of colorama, parameters of the model. -/
abbrev Colours := ℤ → String

/-- `_printMessage` (logger.py:81-103) without a status function (the GUI sets one, gui.py:637).  `LOGGING_LEVEL>=level` raises a TypeError for text. `none` is the TypeError: the program ends there. -/
def say (c : Colours) (g : Log) (m : Msg) : Option Log :=
  match g.level with
  | .text _ => none
  | .num n =>
    if m.level ≤ n then
      some { g with
        printed := g.printed ++ [dressed n m]
        written := match g.file with
          | some f => if f = "" then g.written else g.written ++ [(f, c m.level ++ dressed n m)]
          | none => g.written }
    else some g

/-- One thing done to the logger: `setLoggingLevel` (logger.py:45-57), `setLoggingFile` (59-61), a message. -/
def act (c : Colours) (g : Log) : Act → Option Log
  | .level v => some { g with level := v }
  | .file f => some { g with file := f }
  | .say m => say c g m

/-- A program: what it did up to its end, and whether it got to its end. -/
def perform (c : Colours) : Log → List Act → Log × Bool
  | g, [] => (g, true)
  | g, a :: as =>
    match act c g a with
    | none => (g, false)
    | some g' => perform c g' as

/-- The options of the command line (bin/soapy:46-63); `verbosity` is what follows `-V`. -/
structure Args where
  verbosity : Option String
  debug : Bool
  gui : Bool
  interactive : Bool

/-- `args.verbosity` (bin/soapy:55-57): default the number 2, otherwise text. -/
def Args.verb (a : Args) : Verb :=
  match a.verbosity with
  | none => .num 2
  | some s => .text s

/-- `verbosity` (bin/soapy:81-84). -/
def Args.chosen (a : Args) : Verb := if a.debug then .num 3 else a.verb

/-- The two parameters of a configuration that concern the logger (confParse.py:548-549). -/
structure Conf where
  verbosity : Verb
  logfile : Option String

/-- The messages of the parts of a run: reading the file (confParse), building the system, the rest of the run.  What they are is left open. -/
structure Said where
  load : List Msg
  init : List Msg
  run : List Msg

/-- `Sim.readParams` (simulation.py:127-141). -/
def readParams (s : Said) : List Act :=
  [.say ⟨2, "simulation.py -> readParams", "Loading configuration file..."⟩] ++ s.load.map .say
    ++ [.say ⟨2, "simulation.py -> readParams", "Loading configuration file... success!"⟩]

/-- `Sim.aoinit` (simulation.py:174-176 and the messages after it, 177-300); `stamp` is `getTimeStamp()`. -/
def aoinit (stamp : String) (conf : Conf) (s : Said) : List Act :=
  [.level conf.verbosity, .file conf.logfile, .say ⟨2, "simulation.py -> aoinit", "Starting Sim: " ++ stamp⟩] ++ s.init.map .say

/-- A script that uses the library (as in the tutorials): `sim = soapy.Sim(file); sim.aoinit(); sim.makeIMat(); sim.aoloop()`. -/
def script (stamp : String) (conf : Conf) (s : Said) : List Act :=
  readParams s ++ aoinit stamp conf s ++ s.run.map .say

/-- The configuration the run sees: line 89 of bin/soapy overwrites `verbosity`, `start_gui` overwrites it again (94, gui.py:173-174). -/
def Args.conf (a : Args) (conf : Conf) : Conf :=
  { conf with verbosity := if a.gui then a.chosen else a.verb }

/-- The program `soapy` (bin/soapy:80-97): level, `Sim`, then the GUI (which initialises at once, gui.py:177), or `aoinit`, `makeIMat`, `aoloop` (34-36), or an interactive session (29-31) in which nothing has been done yet. -/
def command (stamp : String) (a : Args) (conf : Conf) (s : Said) : List Act :=
  .level a.chosen :: readParams s ++
    (if !a.gui && a.interactive then [] else aoinit stamp (a.conf conf) s ++ s.run.map .say)

end Soapy.Cli
