/-
Model of saving, loading and rebuilding interaction and control matrices, with a file system in which a process
may die at any point.
-/
import Verif.Model.Mirror
import Verif.Model.Control

namespace Soapy.Persist

open Soapy.Mirror Soapy.Vec

/-- A file: not there, partially written, or complete. -/
inductive File (α : Type) where
  | absent
  | torn
  | whole (a : α)

/-- `fits.getdata`/`getheader`: a missing or truncated file raises `OSError` (= `IOError`). -/
def File.read {α : Type} : File α → Except PyErr α
  | .whole a => .ok a
  | _ => .error .ioError

/-- `iMat.fits`: header cards `DMNACTU`, `NSLOP` (simulation.py:1002,1026; `none` if the file was written by something else),
number of columns and rows of the matrix. -/
structure ImatFile where
  hdr : Option (ℕ × ℕ)
  cols : ℕ
  data : List (List ℚ)

/-- The files of one simulation directory that concern the interaction matrix: `iMat.fits`, `active_acts_dm{i}.fits`,
`dmShapes_dm{i}.fits`. -/
structure Dir where
  imat : File ImatFile
  acts : ℕ → File (List Bool)
  shapes : ℕ → File (List Arr2)

/-- The part of a mirror object that matters here: `n_acts`, `nx_dm_elements`, `valid_actuators`, `iMatShapes`. -/
structure Dm where
  nActs : ℕ
  nElem : ℕ
  valid : List Bool
  shapes : List Arr2

/-- `sim_config.totalActs`, `sim_config.totalWfsData`, `scrnSize`. -/
structure Cfg where
  totalActs : ℕ
  totalMeas : ℕ
  scrn : ℕ

/-- The loop over the mirrors in `load_interaction_matrix` (reconstruction.py:221-237) from mirror `i` on.  Returns the mirrors, changed
in place also if an exception ends the loop, and the number of valid actuators.  The setter stores the flags before it
filters the shapes (DM.py:221-228). -/
def loadDms (dir : Dir) : ℕ → List Dm → List Dm × Except PyErr ℕ
  | _, [] => ([], .ok 0)
  | i, d :: ds =>
    match (dir.acts i).read with
    | .error e => (d :: ds, .error e)
    | .ok v =>
      match setValid d.shapes v with
      | .error e => ({ d with valid := v } :: ds, .error e)
      | .ok (n, kept) =>
        let d' := match (dir.shapes i).read with
          | .ok s => { d with valid := v, shapes := s }
          | .error _ => { d with valid := v, shapes := kept }
        let r := loadDms dir (i + 1) ds
        (d' :: r.1, match r.2 with
          | .ok m => .ok (n + m)
          | .error e => .error e)

/-- `load_interaction_matrix` (reconstruction.py:194-246): the mirrors afterwards and the matrix or exception. -/
def load (cfg : Cfg) (dir : Dir) (dms : List Dm) : List Dm × Except PyErr (List (List ℚ)) :=
  match dir.imat.read with
  | .error e => (dms, .error e)
  | .ok f =>
    match f.hdr with
    | none => (dms, .error .keyError)
    | some (a, m) =>
      if a ≠ cfg.totalActs ∨ m ≠ cfg.totalMeas then (dms, .error .ioError)
      else
        match loadDms dir 0 dms with
        | (dms', .error e) => (dms', .error e)
        | (dms', .ok n) =>
          if f.data.length = n ∧ f.cols = cfg.totalMeas then (dms', .ok f.data)
          else (dms', .error .ioError)

/-- One `fits.writeto(name, …, overwrite=True)`: an existing file is removed, then written.  The process can die
between the three steps. -/
def writeSteps {α : Type} (put : File α → Dir → Dir) (a : α) : List (Dir → Dir) :=
  [put .absent, put .torn, put (.whole a)]

def putImat (f : File ImatFile) (d : Dir) : Dir := { d with imat := f }

def putActs (i : ℕ) (f : File (List Bool)) (d : Dir) : Dir :=
  { d with acts := fun k => if k = i then f else d.acts k }

/-- Writing the flags of mirrors `i, i+1, …` (reconstruction.py:179-182).  The write of `dmShapes` (185-189) evaluates
`self.simConfig`, which does not exist, and the `AttributeError` is swallowed: that file is never written. -/
def saveActs : ℕ → List (List Bool) → List (Dir → Dir)
  | _, [] => []
  | i, v :: vs => writeSteps (putActs i) v ++ saveActs (i + 1) vs

/-- `save_interaction_matrix` (reconstruction.py:165-192) as the list of its effects on the directory.  `hdr` is `saveHeader`,
made in `aoinit` from the totals of that moment (simulation.py:709). -/
def saveSteps (hdr : ℕ × ℕ) (cols : ℕ) (m : List (List ℚ)) (flags : List (List Bool)) : List (Dir → Dir) :=
  writeSteps putImat ⟨some hdr, cols, m⟩ ++ saveActs 0 flags

/-- The directory after the first steps of a sequence. -/
def runSteps (steps : List (Dir → Dir)) (d : Dir) : Dir := steps.foldl (fun d f => f d) d

/-- `makeIMat` (reconstruction.py:248-265) from mirror `k` on: `make_dm_iMat` for each mirror, with the setter, and the rows
stacked.  `sense k` is the response of all sensors to a surface of mirror `k`. -/
def makeIMat (cfg : Cfg) (sense : ℕ → Arr2 → List ℚ) : ℕ → List Dm → Except PyErr (List Dm × List (List ℚ))
  | _, [] => .ok ([], [])
  | k, d :: ds =>
    match makeDmIMat d.nActs cfg.totalMeas
        (fun c => dmFrame cfg.scrn d.nElem 0 d.shapes (zero2 cfg.scrn) c) (sense k) with
    | .error e => .error e
    | .ok (flags, rows) =>
      match setValid d.shapes flags with
      | .error e => .error e
      | .ok (_, kept) =>
        match makeIMat cfg sense (k + 1) ds with
        | .error e => .error e
        | .ok (ds', rows') => .ok ({ d with valid := flags, shapes := kept } :: ds', rows ++ rows')

/-- The interaction-matrix half of `makeCMat(loadIMat=True)` (reconstruction.py:372-382): load, and on *any* exception make
a new one. -/
def ensure (cfg : Cfg) (sense : ℕ → Arr2 → List ℚ) (dir : Dir) (dms : List Dm) :
    Except PyErr (List Dm × List (List ℚ)) :=
  match load cfg dir dms with
  | (dms', .ok m) => .ok (dms', m)
  | (dms', .error _) => makeIMat cfg sense 0 dms'

/-- Nothing saved yet. -/
def emptyDir : Dir := ⟨.absent, fun _ => .absent, fun _ => .absent⟩

/-! ### The control matrix -/

/-- `cMat.fits`: the header cards `NBDM`, `DMACTS`, `DMTYPE`, `DMCOND` (`none` if one is missing), and the matrix with its shape. -/
structure CmatFile where
  hdr : Option (ℕ × List ℕ × List String × List ℚ)
  rows : ℕ
  cols : ℕ
  data : List (List ℚ)

/-- `numpy.allclose(a, b)` on vectors: `|a - b| ≤ 1e-8 + 1e-5 |b|` elementwise; a single entry is compared with all entries of the other, other lengths that differ
do not broadcast (`ValueError`). -/
def allclose (a b : List ℚ) : Except PyErr Bool :=
  let x := stretch a b.length
  let y := stretch b a.length
  if x.length = y.length then
    .ok ((List.zipWith (fun x y => decide (|x - y| ≤ 1 / 10 ^ 8 + 1 / 10 ^ 5 * |y|)) x y).all id)
  else .error .valueError

/-- `loadCMat` (reconstruction.py:122-163).  `shape` is `controlShape`, set in `__init__` from the totals before any actuator is
dropped (reconstruction.py:93-96).  Differences in `DMACTS`, `DMTYPE` only give a warning and
`dmNo!=dmNo` is never true; a missing card only gives a warning. -/
def loadCMat (shape : ℕ × ℕ) (conds : List ℚ) (file : File CmatFile) : Except PyErr (List (List ℚ)) :=
  match file.read with
  | .error e => .error e
  | .ok f =>
    let check : Except PyErr Unit := match f.hdr with
      | none => .ok ()
      | some (_, _, _, c) =>
        match allclose c conds with
        | .error e => .error e
        | .ok true => .ok ()
        | .ok false => .error .ioError
    match check with
    | .error e => .error e
    | .ok () => if (f.rows, f.cols) ≠ shape then .error .ioError else .ok f.data

/-- The control-matrix half of `makeCMat(loadCMat=True)` (reconstruction.py:390-401); `compute` is the result of `calcCMat`. -/
def ensureCMat (shape : ℕ × ℕ) (conds : List ℚ) (file : File CmatFile)
    (compute : Except PyErr (List (List ℚ))) : Except PyErr (List (List ℚ)) :=
  match loadCMat shape conds file with
  | .ok c => .ok c
  | .error _ => compute

end Soapy.Persist
