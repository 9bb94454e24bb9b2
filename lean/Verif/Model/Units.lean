/-
Model of the unit of the commands: `iMatValue`, the height by which an actuator moves for a command of one.
-/
import Verif.Model.Whole

namespace Soapy.Units

open Soapy.Mirror

/-- An array times a number. -/
def times (v : ℚ) (a : Arr2) : Arr2 := ⟨a.rows, a.cols, fun i j => v * a.px i j⟩

/-- `self.iMatShapes *= self.config.iMatValue` (DM.py:131-133); `d` has the shapes as `makeIMatShapes` left them.  (For the fast
mirror the commands are multiplied instead, DM.py:503, which is the same: `C124_surface`.) -/
def pushed (v : ℚ) (d : Persist.Dm) : Persist.Dm := { d with shapes := d.shapes.map (times v) }

/-- All mirrors, each with its own value (`confParse.py:983`). -/
def pushedAll (vs : List ℚ) (dms : List Persist.Dm) : List Persist.Dm := List.zipWith pushed vs dms

end Soapy.Units
