/-
Model of the measurement vector: offsets computed in `aoinit` and filling in `runWfs_noMP`.
-/
import Verif.Model.Vec

namespace Soapy.Layout

open Soapy.Vec

/-- `aoinit` (simulation.py:199,215-217): for each sensor `dataStart = totalWfsData`, then
`totalWfsData += n_measurements`.  Returns the list of `dataStart` and the total. -/
def dataStarts : List ℕ → ℕ → List ℕ × ℕ
  | [], total => ([], total)
  | n :: ns, total =>
    let r := dataStarts ns (total + n)
    (total :: r.1, r.2)

/-- A sensor as seen by `runWfs_noMP`: `n_measurements` and the vector returned by its `frame`. -/
structure Wfs where
  nMeas : ℕ
  output : List ℚ

/-- The second loop of `runWfs_noMP` (simulation.py:391-404): `slopes[s:s+n] = frame(…)`. -/
def fill (wfss : List Wfs) : List ℕ → ℕ → List ℚ → Except PyErr (List ℚ)
  | [], _, slopes => .ok slopes
  | k :: ks, s, slopes =>
    match wfss[k]? with
    | none => .error .keyError
    | some w =>
      match assign slopes s (s + w.nMeas) w.output with
      | .error e => .error e
      | .ok slopes' => fill wfss ks (s + w.nMeas) slopes'

/-- `runWfs_noMP` (simulation.py:363-407) without the read-out decision (see `Soapy.Exposure`): the size is
summed over `wfsList` (383-385), the vector is zeroed and then filled.  `wfsList=None` means all sensors
in order (380-381). -/
def runWfs (wfss : List Wfs) (wfsList : Option (List ℕ)) : Except PyErr (List ℚ) :=
  let ks := wfsList.getD (List.range wfss.length)
  match ks.mapM (fun k => wfss[k]?) with
  | none => .error .keyError
  | some ws => fill wfss ks 0 (zeros (ws.map Wfs.nMeas).sum)

end Soapy.Layout
