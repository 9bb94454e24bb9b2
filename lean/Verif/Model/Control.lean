/-
Model of the control law: `Reconstructor.apply_gain`, `reconstruct`, `reset`.
-/
import Verif.Model.Vec

namespace Soapy.Control

open Soapy.Vec

/-- The attributes of a mirror that the control law reads: `dm.n_valid_actuators`,
`dm.dmConfig.closed`, `dm.dmConfig.gain` (reconstruction.py:416-428). -/
structure DmCtl where
  nValid : ℕ
  closed : Bool
  gain : ℚ

/-- The right-hand sides of reconstruction.py:422 (closed) and 425-426 (open), elementwise. -/
def newValues (d : DmCtl) (act new : List ℚ) : List ℚ :=
  if d.closed then List.zipWith (fun a u => a + d.gain * u) act new
  else List.zipWith (fun a u => d.gain * u + (1 - d.gain) * a) act new

/-- `apply_gain` (reconstruction.py:409-428): the loop over the mirrors with the running index
`n_act1`, on the flat arrays `actuator_values` and `new_actuator_values`.
Slices of different length make numpy raise `ValueError`. -/
def applyGain : List DmCtl → ℕ → List ℚ → List ℚ → Except PyErr (List ℚ)
  | [], _, act, _ => .ok act
  | d :: ds, n1, act, new =>
    let n2 := n1 + d.nValid
    let a := slice act n1 n2
    let u := slice new n1 n2
    if a.length = u.length then
      match assign act n1 n2 (newValues d a u) with
      | .error e => .error e
      | .ok act' => applyGain ds n2 act' new
    else .error .valueError

/-- `control_matrix.T.dot(wfs_measurements)` (reconstruction.py:437); `nActs` is the number of
columns of `control_matrix`, whose rows belong to the measurements. -/
def tdot (nActs : ℕ) (cmat : List (List ℚ)) (s : List ℚ) : Except PyErr (List ℚ) :=
  if cmat.length = s.length then
    .ok ((List.zipWith (fun row x => row.map (x * ·)) cmat s).foldl
      (List.zipWith (· + ·)) (zeros nActs))
  else .error .valueError

/-- The state of a reconstructor that matters in the loop: `actuator_values` (None at first,
reconstruction.py:102). -/
structure Recon where
  actuatorValues : Option (List ℚ)

/-- `reconstruct` (reconstruction.py:431-442).  `totalActs` is `sim_config.totalActs`.  The product with
the control matrix is the parameter `product` (`tdot` for the base class). -/
def reconstruct (dms : List DmCtl) (totalActs : ℕ)
    (product : List ℚ → Except PyErr (List ℚ)) (r : Recon) (meas : List ℚ) :
    Except PyErr (Recon × List ℚ) :=
  let act := match r.actuatorValues with
    | none => zeros totalActs
    | some a => a
  match product meas with
  | .error e => .error e
  | .ok new =>
    match applyGain dms 0 act new with
    | .error e => .error e
    | .ok act' => .ok (⟨some act'⟩, act')

/-- `reset` (reconstruction.py:444-446). -/
def reset (r : Recon) : Recon :=
  match r.actuatorValues with
  | none => r
  | some a => ⟨some (a.map fun _ => 0)⟩

/-- Successive calls of `reconstruct`; returns the last commands returned (or none). -/
def runReconstruct (dms : List DmCtl) (totalActs : ℕ)
    (product : List ℚ → Except PyErr (List ℚ)) : Recon → List (List ℚ) →
    Except PyErr (Recon × List (List ℚ))
  | r, [] => .ok (r, [])
  | r, m :: ms =>
    match reconstruct dms totalActs product r m with
    | .error e => .error e
    | .ok (r', c) =>
      match runReconstruct dms totalActs product r' ms with
      | .error e => .error e
      | .ok (r'', cs) => .ok (r'', c :: cs)

end Soapy.Control
