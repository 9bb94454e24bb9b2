/-
Model of what the GUI shows: common levels of the pictures, progress, remaining time, colours of the Strehl curves, gains (`soapy/gui/gui.py`).

Simplified: a picture is the list of its pixels; floating point numbers are rational numbers; Qt's widgets show what they are given (a spin box shows a rounded value, which is not modelled).
-/
import Verif.Model.Config

namespace Soapy.Display

open Soapy.Conf

/-- `picture.min()` and `picture.max()` (gui.py:347-359): a picture without pixels raises a `ValueError`. -/
def lowHigh : List ℚ → Except PyErr (ℚ × ℚ)
  | [] => .error .valueError
  | x :: xs => .ok (xs.foldl min x, xs.foldl max x)

/-- The picture of a sensor (gui.py:346-348): without one an `AttributeError` is raised. -/
def sensorLowHigh : Option (List ℚ) → Except PyErr (ℚ × ℚ)
  | none => .error .attributeError
  | some v => lowHigh v

/-- `GUI.getPlotScaling` (gui.py:338-363).  `numpy.any(plotDict["wfsPhase"])` (345) is the dictionary itself, which is never `None`, so that a sensor without a picture raises an `AttributeError`; mirrors and cameras without
one are left out (350-358). -/
def levels (wfss dms scis : List (Option (List ℚ))) : Except PyErr (ℚ × ℚ) :=
  (mapE sensorLowHigh wfss).bind fun a =>
    (mapE lowHigh (dms.filterMap id)).bind fun b =>
      (mapE lowHigh (scis.filterMap id)).bind fun c =>
        match a ++ b ++ c with
        | [] => .error .valueError
        | p :: ps => .ok ((ps.map Prod.fst).foldl min p.1, (ps.map Prod.snd).foldl max p.2)

/-- The numbers in the message of frame `k` of `n` (`iters` is `k`; simulation.py:575, 1082): on the console `i + 1` of `maxIter` (logger.py:71), in the GUI `i` of `maxIter` (logger.py:74, gui.py:582-585). -/
def messageNumbers (gui : Bool) (k n : ℕ) : ℕ × ℕ := if gui then (k, n) else (k + 1, n)

/-- The value of the progress bar (gui.py:582). -/
def percent (i maxIter : ℕ) : Except PyErr ℤ := if maxIter = 0 then .error .zeroDivisionError else .ok (pyRound (100 * ((i : ℚ) / maxIter)))

/-- `itersPerSec` (gui.py:618-620), `elapsed` seconds after the thread was started. -/
def rate (iters : ℕ) (elapsed : ℚ) : ℚ := if (iters : ℚ) / elapsed = 0 then 1 / 100000 else iters / elapsed

/-- `timeRemaining` (gui.py:621). -/
def remaining (n iters : ℕ) (elapsed : ℚ) : ℚ := ((n : ℚ) - iters) / rate iters elapsed

/-- `initStrehlPlot` (gui.py:447-449): the next colour of seven (gui.py:165). -/
def nextColour (c : ℕ) : ℕ := if c + 1 = 7 then 0 else c + 1

/-- The colour of the curves of camera `sci` (gui.py:472-475). -/
def colour (c sci : ℕ) : ℕ := (c + sci) % 7

/-- The colours of the runs: `run` is pressed `k` times (gui.py:526-528), starting from the first colour (gui.py:166). -/
def colourOfRun : ℕ → ℕ
  | 0 => 0
  | k + 1 => nextColour (colourOfRun k)

/-- Configurations as objects: number `k` has the gains `gains k`; `sim` is `sim.config`, `gui` is the configuration of the GUI, `used` the one whose objects the mirrors and the reconstructor hold. -/
structure Objects where
  gains : ℕ → ℕ → ℚ
  next : ℕ
  sim : ℕ
  gui : ℕ
  used : ℕ

/-- What a user can do about gains: initialise (gui.py:489-499, simulation.py:160-303), reload the file (gui.py:486-487), open a file (gui.py:192-205), change the gain of a mirror (gui.py:568-569). -/
inductive Act
  | init
  | reload (gains : ℕ → ℚ)
  | load (gains : ℕ → ℚ)
  | gain (dm : ℕ) (value : ℚ)

/-- `readParams` makes a new configuration object (simulation.py:126-158). -/
def readParams (g : ℕ → ℚ) (o : Objects) : Objects := { o with gains := fun k => if k = o.next then g else o.gains k, next := o.next + 1, sim := o.next }

/-- One action. -/
def act : Act → Objects → Objects
  | .init, o => { o with gui := o.sim, used := o.sim }
  | .reload g, o => readParams g o
  | .load g, o => { readParams g o with gui := o.next }
  | .gain dm v, o => { o with gains := fun k m => if k = o.gui ∧ m = dm then v else o.gains k m }

/-- Actions one after the other. -/
def acts (as : List Act) (o : Objects) : Objects := as.foldl (fun o a => act a o) o

/-- The GUI was opened with a simulation, which it initialises (gui.py:172-181). -/
def opened (g : ℕ → ℚ) : Objects := ⟨fun _ => g, 1, 0, 0, 0⟩

/-- The gain the loop uses for a mirror (reconstruction.py:444-470). -/
def gainInLoop (o : Objects) (dm : ℕ) : ℚ := o.gains o.used dm

end Soapy.Display
