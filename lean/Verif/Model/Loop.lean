/-
Model of the control loop: `Sim.loopFrame` with `runDM`, `storeData`, `finishUp`.
-/
import Verif.Model.Control
import Verif.Model.Delay
import Mathlib.Algebra.Group.Defs

namespace Soapy.Loop

open Soapy.Vec Soapy.Control

/-- `makeIMat` (simulation.py:351-356): index of the first command of each mirror. -/
def firstActs : List DmCtl → ℕ → List ℕ
  | [], _ => []
  | d :: ds, total => total :: firstActs ds (total + d.nValid)

/-- `runDM` (simulation.py:483-509) from mirror `k` on: mirrors whose mode is `closed` write their surface into their
slot of the correction buffer, other slots are left alone.  `surface k` is `dms[k].dmFrame`
(see `Soapy.Mirror` and C15: the result depends only on the commands). -/
def runDM {Surf : Type} (surface : ℕ → List ℚ → Except PyErr Surf) (closed : Bool) (cmds : List ℚ) :
    ℕ → List DmCtl → List ℕ → List Surf → Except PyErr (List Surf)
  | _, [], _, buf => .ok buf
  | _, _ :: _, [], _ => .error .indexError
  | k, d :: ds, a :: as, buf =>
    if d.closed = closed then
      match surface k (slice cmds a (a + d.nValid)) with
      | .error e => .error e
      | .ok s => runDM surface closed cmds (k + 1) ds as (buf.set k s)
    else runDM surface closed cmds (k + 1) ds as buf

/-- What the loop needs to know of the configuration and the reconstructor. -/
structure Sys (Surf : Type) where
  surface : ℕ → List ℚ → Except PyErr Surf
  product : List ℚ → Except PyErr (List ℚ)
  loopDelay : ℤ
  nIters : ℕ
  saveSlopes : Bool
  saveDmCommands : Bool

/-- Everything outside the control loop: moving the atmosphere and running all sensors with a correction
(`moveScrns` and `runWfs`, simulation.py:539, 559-560).  `σ` is the state of atmosphere and sensors. -/
structure Plant (σ Surf : Type) where
  sense : σ → ℕ → List Surf → Except PyErr (σ × List ℚ)

/-- The attributes of the simulation object used by the loop. -/
structure State (σ Surf : Type) where
  recon : Recon
  dmCommands : List ℚ
  buffer : List (List ℚ)
  slopes : List ℚ
  closedCorr : List Surf
  openCorr : List Surf
  iters : ℕ
  allSlopes : List (List ℚ)
  allDmCommands : List (List ℚ)
  plant : σ

/-- What can be observed of one frame: the commands sent to the mirrors, the correction seen by the sensors,
the measurements, the correction seen by the science cameras. -/
structure Trace (Surf : Type) where
  cmds : List ℚ
  seenByWfs : List Surf
  slopes : List ℚ
  seenBySci : List Surf

/-- `v*0.0` in the delay buffer. -/
def zeroLike (v : List ℚ) : List ℚ := v.map (· * 0)

/-- First half of `loopFrame` (simulation.py:545-552): reconstruct from the measurements of the previous frame and
delay.  With `nDM == 0` the reconstruction is skipped (simulation.py:547). -/
def control {Surf : Type} (sys : Sys Surf) (dms : List DmCtl) (recon : Recon) (dmCommands : List ℚ)
    (buffer : List (List ℚ)) (slopes : List ℚ) :
    Except PyErr (Recon × List (List ℚ) × List ℚ) :=
  let r : Except PyErr (Recon × List ℚ) :=
    if dms.length = 0 then .ok (recon, dmCommands)
    else
      match reconstruct dms ((dms.map DmCtl.nValid).sum) sys.product recon slopes with
      | .error e => .error e
      | .ok (recon', new) =>
        if new.length = dmCommands.length then .ok (recon', new) else .error .valueError
  match r with
  | .error e => .error e
  | .ok (recon', cmds) =>
    match Delay.delay zeroLike buffer cmds sys.loopDelay with
    | .error e => .error e
    | .ok (buffer', out) => .ok (recon', buffer', out)

/-- `allX[i] = row` in `storeData` (simulation.py:817-822): the row index is in range because
`i = iters % nIters`; a row of different length raises `ValueError` (broadcasting of length 1 is not modelled). -/
def storeRow (save : Bool) (hist : List (List ℚ)) (i : ℕ) (row : List ℚ) :
    Except PyErr (List (List ℚ)) :=
  if save then
    match hist[i]? with
    | none => .error .indexError
    | some old => if old.length = row.length then .ok (hist.set i row) else .error .valueError
  else .ok hist

variable {σ Surf : Type} [Add Surf]

/-- `loopFrame` (simulation.py:531-579) with the mirrors' configuration `dms` in force in this frame.
Science cameras and GUI do not feed back into the loop and are not part of the state here.
`iters % nIters` with `nIters = 0` raises `ZeroDivisionError`. -/
def loopFrame (sys : Sys Surf) (pl : Plant σ Surf) (dms : List DmCtl) (s : State σ Surf) :
    Except PyErr (State σ Surf × Trace Surf) :=
  match control sys dms s.recon s.dmCommands s.buffer s.slopes with
  | .error e => .error e
  | .ok (recon, buffer, cmds) =>
    let acts := firstActs dms 0
    match runDM sys.surface true cmds 0 dms acts s.closedCorr with
    | .error e => .error e
    | .ok closedCorr =>
      match pl.sense s.plant s.iters closedCorr with
      | .error e => .error e
      | .ok (plant, slopes) =>
        match runDM sys.surface false cmds 0 dms acts s.openCorr with
        | .error e => .error e
        | .ok openCorr =>
          let combined := List.zipWith (· + ·) openCorr closedCorr
          if sys.nIters = 0 then .error .zeroDivisionError
          else
            let i := s.iters % sys.nIters
            match storeRow sys.saveSlopes s.allSlopes i slopes with
            | .error e => .error e
            | .ok allSlopes =>
              match storeRow sys.saveDmCommands s.allDmCommands i cmds with
              | .error e => .error e
              | .ok allDmCommands =>
                .ok (⟨recon, cmds, buffer, slopes, closedCorr, openCorr, s.iters + 1, allSlopes,
                  allDmCommands, plant⟩, ⟨cmds, closedCorr, slopes, combined⟩)

/-- A run of frames; the list gives the mirror configuration of each frame. -/
def runLoop (sys : Sys Surf) (pl : Plant σ Surf) : State σ Surf → List (List DmCtl) →
    Except PyErr (State σ Surf × List (Trace Surf))
  | s, [] => .ok (s, [])
  | s, dms :: rest =>
    match loopFrame sys pl dms s with
    | .error e => .error e
    | .ok (s', t) =>
      match runLoop sys pl s' rest with
      | .error e => .error e
      | .ok (s'', ts) => .ok (s'', t :: ts)

/-- The state after `aoinit` and `makeIMat` (simulation.py:296-303, 350-358): everything zero.  `nActs` is the sum of
`n_acts` over the mirrors, used for the size of `allDmCommands` (simulation.py:765-768, from `aoinit`,
before dead actuators are dropped). -/
def initial [Zero Surf] (sys : Sys Surf) (dms : List DmCtl) (nMeas nActs : ℕ) (plant : σ) : State σ Surf where
  recon := ⟨none⟩
  dmCommands := zeros (dms.map DmCtl.nValid).sum
  buffer := []
  slopes := zeros nMeas
  closedCorr := List.replicate dms.length 0
  openCorr := List.replicate dms.length 0
  iters := 0
  allSlopes := List.replicate sys.nIters (zeros nMeas)
  allDmCommands := List.replicate sys.nIters (zeros nActs)
  plant := plant

/-- `reset_loop` (simulation.py:650-674) as far as the loop's own state goes: the frame counter, measurements, commands, saved
histories (if saved) and the reconstructor are reset; the delay buffer, the corrections of the last frame and
atmosphere and sensors are not.  (`dm.reset` only clears attributes that the next `dmFrame` overwrites.) -/
def resetLoop {σ Surf : Type} (sys : Sys Surf) (s : State σ Surf) : State σ Surf :=
  { s with
    iters := 0
    slopes := s.slopes.map fun _ => 0
    dmCommands := s.dmCommands.map fun _ => 0
    allSlopes := if sys.saveSlopes then s.allSlopes.map (·.map fun _ => 0) else s.allSlopes
    allDmCommands := if sys.saveDmCommands then s.allDmCommands.map (·.map fun _ => 0) else s.allDmCommands
    recon := Control.reset s.recon }

/-- Per-frame scalar records such as `longStrehl[sci, i]` (simulation.py:832-835), without length checks. -/
def store {α : Type} (N : ℕ) (hist : List α) (iters : ℕ) (x : α) : List α := hist.set (iters % N) x

/-- Recording the values `xs` of successive frames, starting with frame number `iters`. -/
def record {α : Type} (N : ℕ) : List α → ℕ → List α → List α
  | hist, _, [] => hist
  | hist, iters, x :: xs => record N (store N hist iters x) (iters + 1) xs

/-- `finishUp` (simulation.py:682-686): `iter_num = iters % nIters - 1`, then `longStrehl[sci_n][iter_num]`. -/
def summary {α : Type} (N : ℕ) (hist : List α) (iters : ℕ) : Except PyErr α :=
  if N = 0 then .error .zeroDivisionError else pyGet hist (((iters % N : ℕ) : ℤ) - 1)

end Soapy.Loop
