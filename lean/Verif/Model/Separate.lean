/-
Model of the reconstructors that cut the interaction matrix into pieces: `get_dm_imat`, `MVM_SeparateDMs`, `LearnAndApply` and
`LearnAndApplyLTAO`.
-/
import Verif.Model.Mirror
import Verif.Model.Control
import Verif.Model.Persist

namespace Soapy.Sep

open Soapy.Mirror Soapy.Vec Soapy.Control

/-- A list of rows as an array with `cols` columns. -/
def ofRows (cols : ℕ) (rows : List (List ℚ)) : Arr2 := ⟨rows.length, cols, fun i j => (rows.getD i []).getD j 0⟩

/-- What is read of a mirror: `n_acts` (before dropping), `dmConfig.wfs`, `dmConfig.svdConditioning`. -/
structure SepDm where
  nActs : ℕ
  wfs : Option ℕ
  cond : ℚ

/-- What is read of a sensor: `config.dataStart`, `n_measurements`. -/
structure SepWfs where
  start : ℕ
  nMeas : ℕ

/-- `first_acts` (reconstruction.py:72-76): running sum of `n_acts`. -/
def firstActs : List SepDm → ℕ → List ℕ
  | [], _ => []
  | d :: ds, n => n :: firstActs ds (n + d.nActs)

/-- A numpy slice `m[a:a+na, b:b+nb]`; numpy clips at the end of the array. -/
def block (m : Arr2) (a na b nb : ℕ) : Arr2 :=
  ⟨min m.rows (a + na) - a, min m.cols (b + nb) - b, fun i j => m.px (a + i) (b + j)⟩

/-- `get_dm_imat` (reconstruction.py:348-365). -/
def getDmImat (m : Arr2) (dms : List SepDm) (wfss : List SepWfs) (dm wfs : ℕ) : Except PyErr Arr2 :=
  match (firstActs dms 0)[dm]? with
  | none => .error .indexError
  | some a =>
    match dms[dm]?, wfss[wfs]? with
    | some d, some w => .ok (block m a d.nActs w.start w.nMeas)
    | _, _ => .error .keyError

/-- `dm_interaction_matrix[:, 0:n] = wfs_imat` (reconstruction.py:488-495) into zeros of size `n_acts × n`: sizes must agree or broadcast. -/
def fitInto (na n : ℕ) (b : Arr2) : Except PyErr Arr2 :=
  if fitsAxis na b.rows ∧ fitsAxis n b.cols then
    .ok ⟨na, n, fun i j => b.px (srcIdx b.rows na i) (srcIdx b.cols n j)⟩
  else .error .valueError

/-- The matrix inverted for mirror `k` in `MVM_SeparateDMs.calcCMat` (reconstruction.py:484-495).  Without a sensor in the configuration
`dm.wfss` is the dictionary of all sensors, iterated over its keys, and the first key (an integer) has no `n_measurements`. -/
def sepImat (m : Arr2) (dms : List SepDm) (wfss : List SepWfs) (k : ℕ) : Except PyErr Arr2 :=
  match dms[k]? with
  | none => .error .keyError
  | some d =>
    match d.wfs with
    | none => .error .attributeError
    | some w =>
      match wfss[w]?, getDmImat m dms wfss k w with
      | some ws, .ok b => fitInto d.nActs ws.nMeas b
      | none, _ => .error .keyError
      | _, .error e => .error e

/-- `control_matrix[s:s+n, acts:acts+n_acts] = c` (reconstruction.py:502-505) where the slice is within the matrix. -/
def putBlock (cm : ℕ → ℕ → ℚ) (s n acts na : ℕ) (c : ℕ → ℕ → ℚ) (i j : ℕ) : ℚ :=
  if s ≤ i ∧ i < s + n ∧ acts ≤ j ∧ j < acts + na then c (i - s) (j - acts) else cm i j

/-- The loop of `MVM_SeparateDMs.calcCMat` (reconstruction.py:476-507) from mirror `k` on, `todo` being the number of mirrors left. `pinv cond a` is
`numpy.linalg.pinv(a, cond)`, of size columns × rows of `a`. -/
def sepCalc (pinv : ℚ → Arr2 → ℕ → ℕ → ℚ) (m : Arr2) (dms : List SepDm) (wfss : List SepWfs) :
    (todo k acts : ℕ) → (ℕ → ℕ → ℚ) → Except PyErr (ℕ → ℕ → ℚ)
  | 0, _, _, cm => .ok cm
  | todo + 1, k, acts, cm =>
    (sepImat m dms wfss k).bind fun a =>
      match dms[k]? with
      | none => .error .keyError
      | some d =>
        match d.wfs.bind fun w => wfss[w]? with
        | none => .error .keyError
        | some ws =>
          sepCalc pinv m dms wfss todo (k + 1) (acts + d.nActs)
            (putBlock cm ws.start ws.nMeas acts d.nActs (pinv d.cond a))

/-- `MVM_SeparateDMs.calcCMat` on the zero matrix made in `__init__` (reconstruction.py:93-94). -/
def separate (pinv : ℚ → Arr2 → ℕ → ℕ → ℚ) (m : Arr2) (dms : List SepDm) (wfss : List SepWfs) :
    Except PyErr (ℕ → ℕ → ℚ) :=
  sepCalc pinv m dms wfss dms.length 0 0 fun _ _ => 0

/-- `control_matrix.T.dot(s)` for a matrix with `nMeas` rows (reconstruction.py:437), entry `j`. -/
def command (nMeas : ℕ) (cm : ℕ → ℕ → ℚ) (s : ℕ → ℚ) (j : ℕ) : ℚ :=
  ∑ i ∈ Finset.range nMeas, cm i j * s i

/-! ### Learn and apply -/

/-- `m.dot(v)` for a matrix with `cols` columns. -/
def matVec (cols : ℕ) (m : List (List ℚ)) (v : List ℚ) : Except PyErr (List ℚ) :=
  if cols = v.length then .ok (m.map fun r => (List.zipWith (· * ·) r v).sum) else .error .valueError

/-- `v.mean()` of a non-empty vector. -/
def meanOf (v : List ℚ) : ℚ := v.sum / v.length

/-- The tomographic reconstructor and the control matrix of `LearnAndApply`: `tomoRecon` with its number of columns, `control_matrix` with its
number of columns, `n_subaps` of the truth sensor. -/
structure Tomo where
  n0 : ℕ
  tomoCols : ℕ
  tomo : List (List ℚ)
  cols : ℕ
  cmat : List (List ℚ)

/-- The branch of `LearnAndApply.reconstruct` for a tip-tilt mirror in front (reconstruction.py:644-652), on the on-axis slopes `s`. -/
def laTT (t : Tomo) (s : List ℚ) : Except PyErr (List ℚ) :=
  if s.length ≠ 2 * t.n0 then .error .valueError
  else
    let x := s.take t.n0
    let y := s.drop t.n0
    (tdot (min 2 t.cols) (t.cmat.map fun r => r.take 2) s).bind fun tt =>
      (tdot (t.cols - 2) (t.cmat.map fun r => r.drop 2)
        (x.map (· - meanOf x) ++ y.map (· - meanOf y))).bind fun d =>
        .ok (tt ++ d)

/-- `LearnAndApply.reconstruct` (reconstruction.py:630-657); `tt` says whether mirror 0 has type `"TT"`. -/
def laReconstruct (t : Tomo) (tt : Bool) (dms : List DmCtl) (totalActs : ℕ) (r : Recon) (slopes : List ℚ) :
    Except PyErr (Recon × List ℚ) :=
  (matVec t.tomoCols t.tomo (slopes.drop (2 * t.n0))).bind fun s =>
    if tt then (laTT t s).bind fun c => .ok (r, c)
    else reconstruct dms totalActs (tdot t.cols t.cmat) r s

/-- `LearnAndApply.makeIMat` (reconstruction.py:519-523) after the matrix of the base class: only the first `2 * n_subaps` columns are kept. -/
def laTruncate (n0 : ℕ) (m : List (List ℚ)) : List (List ℚ) := m.map fun r => r.take (2 * n0)

/-- The interaction-matrix half of `makeCMat` (reconstruction.py:372-382) for `LearnAndApply`: load, or make, cut and save.  Returns mirrors, matrix,
and the directory afterwards. -/
def laEnsure (cfg : Persist.Cfg) (n0 : ℕ) (sense : ℕ → Arr2 → List ℚ) (dir : Persist.Dir) (dms : List Persist.Dm) :
    Except PyErr (List Persist.Dm × List (List ℚ) × Persist.Dir) :=
  match Persist.load cfg dir dms with
  | (dms', .ok m) => .ok (dms', m, dir)
  | (dms', .error _) =>
    (Persist.makeIMat cfg sense 0 dms').bind fun r =>
      let m := laTruncate n0 r.2
      .ok (r.1, m, Persist.runSteps (Persist.saveSteps (cfg.totalActs, cfg.totalMeas) (min cfg.totalMeas (2 * n0)) m
        (r.1.map Persist.Dm.valid)) dir)

/-! ### Laser tomography -/

/-- `LearnAndApplyLTAO.calcCMat` after the learning (reconstruction.py:706): the separate control matrices from the interaction matrix, which `makeIMat`
(inherited from `LearnAndApply`) has cut to the measurements of sensor 0. -/
def ltaoCalc (pinv : ℚ → Arr2 → ℕ → ℕ → ℚ) (n0 : ℕ) (m : Arr2) (dms : List SepDm) (wfss : List SepWfs) :
    Except PyErr (ℕ → ℕ → ℚ) :=
  separate pinv ⟨m.rows, min m.cols (2 * n0), m.px⟩ dms wfss

/-- Removal of the mean in `LearnAndApplyLTAO.reconstruct` (reconstruction.py:728-730): `nSubaps` is the *number of slopes*, so the first statement takes the mean of everything
and the second does nothing. -/
def ltaoRemove (s : List ℚ) : List ℚ :=
  let n := s.length
  let a := (s.take n).map (· - meanOf (s.take n)) ++ s.drop n
  a.take n ++ (a.drop n).map (· - meanOf (a.drop n))

/-- `LearnAndApplyLTAO.reconstruct` (reconstruction.py:713-760).  `start1`, `start2` are `dataStart` of sensors 1 and 2, the control matrix `cmat` has `cols` columns. -/
def ltaoReconstruct (start1 start2 tomoCols : ℕ) (tomo : List (List ℚ)) (cols : ℕ) (cmat : List (List ℚ))
    (slopes : List ℚ) : Except PyErr (List ℚ) :=
  (matVec tomoCols tomo (slopes.drop start2)).bind fun ho =>
    tdot cols cmat (slopes.take start1 ++ ltaoRemove ho)

end Soapy.Sep
