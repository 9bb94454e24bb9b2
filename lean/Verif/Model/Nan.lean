/-
Model of the path from the measurements to the mirror surfaces in floating point with NaN: what `WFS.frame` does about NaN, the control law, the delay buffer, the sum of influence functions.  Finite floats are exact
rationals; infinities are not distinguished from NaN.
-/
import Verif.Model.Influence
import Verif.Model.Control
import Verif.Model.Delay
import Verif.Model.Sensors
import Verif.Model.Slopes

namespace Soapy.Nan

open Soapy.Mirror Soapy.Vec Soapy.Control Soapy.Influence

/-- Sum of two floats. -/
def addF : Flt → Flt → Flt
  | some a, some b => some (a + b)
  | _, _ => none

/-- Product of two floats; `0.0 * nan` is NaN. -/
def mulF : Flt → Flt → Flt
  | some a, some b => some (a * b)
  | _, _ => none

/-- `numpy.nan_to_num(v)`: a new array. -/
def nanToNum (v : List Flt) : List Flt := v.map fun x => some (x.getD 0)

/-- The end of `WFS.frame` (wfs.py:457-466): `slopes` is `self.slopes` after `calculateSlopes`.  The array made by `numpy.nan_to_num` is not kept.  Returns `self.slopes` and the return value. -/
def frameEnd (nMeas : ℕ) (read : Bool) (slopes : List Flt) : List Flt × List Flt :=
  let _unused := if slopes.any Option.isNone then nanToNum slopes else []
  (slopes, if read then slopes else List.replicate nMeas (some 0))

/-- `slopes -= w` -/
def subF (v w : List Flt) : List Flt := List.zipWith (fun a b => addF a (mulF (some (-1)) b)) v w

/-- The sum of a list of floats. -/
def sumF (v : List Flt) : Flt := v.foldl addF (some 0)

/-- `v -= v.mean()` for a vector (of an empty one nothing is left to subtract from). -/
def demeanF (v : List Flt) : List Flt := v.map fun a => addF a (mulF (some (-1)) (mulF (sumF v) (some (1 / (v.length : ℚ)))))

/-- `ShackHartmann.calculateSlopes` from the centroids on (shackhartmann.py:438-460), as `Slopes.slopes`, but every quantity may be NaN. -/
def shSlopes (n p : ℕ) (m : Slopes.Mode) (static noise : Option (List Flt)) (cents : List Flt) : List Flt :=
  let s := (nanToNum cents).map fun a => addF a (some (-(p / 2)))
  let s := if (static.getD []).any (fun z => !fltEq z (some 0)) then subF s (static.getD []) else s
  let s := if m.removeTT then demeanF (s.take n) ++ demeanF (s.drop n) else s
  match noise with
  | none => s
  | some w => if m.iMat then s else List.zipWith addF s w

/-- `Pyramid.calculateSlopes` (pyramid.py:367-409) with NaN: after a dark image every slope is NaN. -/
def pyramidSlopes (flat : List ℚ) (det mask : Arr2) : Except PyErr (List Flt) :=
  match Sensors.pyrSlopes flat det mask with
  | .error e => .error e
  | .ok none => .ok (List.replicate flat.length none)
  | .ok (some s) => .ok (s.map some)

/-- `control_matrix.T.dot(wfs_measurements)` (reconstruction.py:437). -/
def tdotF (nActs : ℕ) (cmat : List (List ℚ)) (s : List Flt) : Except PyErr (List Flt) :=
  if cmat.length = s.length then
    .ok ((List.zipWith (fun row x => row.map fun c => mulF x (some c)) cmat s).foldl (List.zipWith addF) (List.replicate nActs (some 0)))
  else .error .valueError

/-- The right-hand sides of reconstruction.py:422 and 425-426 for one actuator. -/
def updateF (d : DmCtl) (a u : Flt) : Flt :=
  if d.closed then addF a (mulF (some d.gain) u)
  else addF (mulF (some d.gain) u) (mulF (some (1 - d.gain)) a)

/-- `apply_gain` (reconstruction.py:409-428). -/
def applyGainF : List DmCtl → ℕ → List Flt → List Flt → Except PyErr (List Flt)
  | [], _, act, _ => .ok act
  | d :: ds, n1, act, new =>
    let n2 := n1 + d.nValid
    let a := slice act n1 n2
    let u := slice new n1 n2
    if a.length = u.length then
      match assign act n1 n2 (List.zipWith (updateF d) a u) with
      | .error e => .error e
      | .ok act' => applyGainF ds n2 act' new
    else .error .valueError

/-- `reconstruct` (reconstruction.py:431-442) with the control matrix `cmat` with `nActs` columns; the state is `actuator_values`. -/
def reconstructF (dms : List DmCtl) (totalActs nActs : ℕ) (cmat : List (List ℚ)) (act : Option (List Flt)) (meas : List Flt) :
    Except PyErr (List Flt) :=
  match tdotF nActs cmat meas with
  | .error e => .error e
  | .ok new => applyGainF dms 0 (act.getD (List.replicate totalActs (some 0))) new

/-- The commands of successive frames. -/
def runF (dms : List DmCtl) (totalActs nActs : ℕ) (cmat : List (List ℚ)) : Option (List Flt) → List (List Flt) → Except PyErr (List (List Flt))
  | _, [] => .ok []
  | act, m :: ms =>
    match reconstructF dms totalActs nActs cmat act m with
    | .error e => .error e
    | .ok c =>
      match runF dms totalActs nActs cmat (some c) ms with
      | .error e => .error e
      | .ok cs => .ok (c :: cs)

/-- `reset` (reconstruction.py:444-446): `actuator_values[:] = 0`. -/
def resetF (act : Option (List Flt)) : Option (List Flt) := act.map fun a => a.map fun _ => some 0

/-- `value*0.0` in the delay buffer (simulation.py:1245-1252). -/
def zeroLikeF (v : List Flt) : List Flt := v.map fun x => mulF x (some 0)

/-- A pixel of `(iMatShapes.T*actCoeffs.T).T.sum(0)` (DM.py:199-202), as many shapes as commands. -/
def surfaceF (shapes : List Arr2) (cmds : List Flt) (i j : ℕ) : Flt :=
  sumF (List.zipWith (fun (s : Arr2) c => mulF (some (s.px i j)) c) shapes cmds)

end Soapy.Nan
