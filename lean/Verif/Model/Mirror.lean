/-
Model of a deformable mirror (`DM.dmFrame`, `makeDMFrame`, the `valid_actuators` setter) and of the
measurement of its interaction matrix (`Reconstructor.make_dm_iMat`).
-/
import Verif.Model.Vec
import Mathlib.Algebra.BigOperators.Group.Finset.Basic
import Mathlib.Algebra.BigOperators.Intervals

namespace Soapy.Mirror

open Soapy.Vec

/-- A two-dimensional numpy array; only the entries `px i j` with `i < rows`, `j < cols` belong to it. -/
structure Arr2 where
  rows : ℕ
  cols : ℕ
  px : ℕ → ℕ → ℚ

/-- `numpy.zeros((n, n))`. -/
def zero2 (n : ℕ) : Arr2 := ⟨n, n, fun _ _ => 0⟩

/-- `a.sum()`. -/
def Arr2.total (a : Arr2) : ℚ := ∑ i ∈ Finset.range a.rows, ∑ j ∈ Finset.range a.cols, a.px i j

/-- `a.mean()`. -/
def Arr2.mean (a : Arr2) : ℚ := a.total / (a.rows * a.cols)

/-- numpy broadcasting of one axis: an axis of length one is repeated to the length of the other. -/
def stretch {α : Type} (xs : List α) (n : ℕ) : List α :=
  match xs with
  | [x] => List.replicate n x
  | _ => xs

/-- `(iMatShapes.T*actCoeffs.T).T.sum(0)` (DM.py:199-202).  `shapes` are the influence functions, all of size
`n × n`.  Numbers of shapes and commands that do not broadcast raise `ValueError`; a single shape or a single
command is repeated.  Without any shape the sum is a scalar, which has no `shape[0]` (`IndexError` at DM.py:183). -/
def makeDMFrame (n : ℕ) (shapes : List Arr2) (cmds : List ℚ) : Except PyErr Arr2 :=
  let ss := stretch shapes cmds.length
  let cs := stretch cmds shapes.length
  if ss.length ≠ cs.length then .error .valueError
  else if shapes.isEmpty then .error .indexError
  else .ok ⟨n, n, fun i j => (List.zipWith (fun (s : Arr2) c => s.px i j * c) ss cs).sum⟩

theorem stretch_self {α : Type} (xs : List α) (n : ℕ) (h : xs.length = n) : stretch xs n = xs := by
  match xs, h with
  | [], _ => rfl
  | [x], h => simp at h; subst h; rfl
  | _ :: _ :: _, _ => rfl

/-- numpy assignment `t = src` along one axis: equal lengths, or `src` has length 1 and broadcasts. -/
def fitsAxis (target src : ℕ) : Prop := src = target ∨ src = 1

instance (a b : ℕ) : Decidable (fitsAxis a b) := by unfold fitsAxis; infer_instance

/-- Index into a source axis of length `src` (0 if it broadcasts). -/
def srcIdx (src target k : ℕ) : ℕ := if src = target then k else 0

/-- `dmFrame` (DM.py:148-197) on a mirror of `n × n` elements and a screen of `scrn × scrn`.  `screen` is the
attribute `dm_screen` from the previous call, the result is the new `dm_screen`, which is what the method
returns.  A non-zero rotation indexes a 2-d array with three indices (DM.py:169-180) and always raises. -/
def dmFrame (scrn n : ℕ) (rotation : ℚ) (shapes : List Arr2) (screen : Arr2) (cmds : List ℚ) :
    Except PyErr Arr2 :=
  match makeDMFrame n shapes cmds with
  | .error e => .error e
  | .ok s =>
    -- self.dm_shape -= self.dm_shape.mean(), DM.py:166
    let m := s.mean
    let d : Arr2 := ⟨s.rows, s.cols, fun i j => s.px i j - m⟩
    if rotation ≠ 0 then .error .indexError
    else if d.rows = scrn then .ok d
    else if scrn < d.rows then
      -- coord = int(round(dm_size/2. - scrn_size/2.)); dm_screen[:] = dm_shape[coord:-coord, coord:-coord]
      let coord := pyRound ((d.rows : ℚ) / 2 - (scrn : ℚ) / 2)
      let lo := sliceBound d.rows coord
      let len := sliceLen d.rows coord (-coord)
      if fitsAxis screen.rows len ∧ fitsAxis screen.cols len then
        .ok ⟨screen.rows, screen.cols, fun i j =>
          d.px (lo + srcIdx len screen.rows i) (lo + srcIdx len screen.cols j)⟩
      else .error .valueError
    else
      -- pad = int(round((scrn_size - dm_size)/2)); dm_screen[pad:-pad, pad:-pad] = dm_shape
      let pad := pyRound (((scrn : ℚ) - d.rows) / 2)
      let lo := sliceBound screen.rows pad
      let len := sliceLen screen.rows pad (-pad)
      if fitsAxis len d.rows ∧ fitsAxis len d.cols then
        .ok ⟨screen.rows, screen.cols, fun i j =>
          if lo ≤ i ∧ i < lo + len ∧ lo ≤ j ∧ j < lo + len then
            d.px (srcIdx d.rows len (i - lo)) (srcIdx d.cols len (j - lo))
          else screen.px i j⟩
      else .error .valueError

/-- Successive calls of `dmFrame`; the screen starts as `numpy.zeros` (DM.py:109). -/
def runDm (scrn n : ℕ) (rotation : ℚ) (shapes : List Arr2) : Arr2 → List (List ℚ) → Except PyErr Arr2
  | screen, [] => .ok screen
  | screen, c :: cs =>
    match dmFrame scrn n rotation shapes screen c with
    | .error e => .error e
    | .ok screen' => runDm scrn n rotation shapes screen' cs

/-- The `valid_actuators` setter (DM.py:221-228): `n_valid_actuators` is the sum of the flags, the shapes
with a zero flag are dropped.  `iMatShapes[i]` with `i` beyond the array raises `IndexError`. -/
def setValid {α : Type} (shapes : List α) (valid : List Bool) : Except PyErr (ℕ × List α) :=
  let rec go : ℕ → List Bool → Except PyErr (List α)
    | _, [] => .ok []
    | i, v :: vs =>
      if v then
        match shapes[i]? with
        | none => .error .indexError
        | some s =>
          match go (i + 1) vs with
          | .error e => .error e
          | .ok r => .ok (s :: r)
      else go (i + 1) vs
  match go 0 valid with
  | .error e => .error e
  | .ok r => .ok (valid.count true, r)

/-- `abs(row).max()`; `none` for an empty row (numpy raises `ValueError`). -/
def absMax (row : List ℚ) : Option ℚ := (row.map abs).max?

/-- The flags of the second loop of `make_dm_iMat` (reconstruction.py:324-330): an actuator is valid iff
`abs(iMat[i]).max() > abs(iMat).max() * 0.001`. -/
def validFlags (iMat : List (List ℚ)) : Except PyErr (List Bool) :=
  match absMax iMat.flatten with
  | none => .error .valueError
  | some m =>
    .ok (iMat.map fun row =>
      match absMax row with
      | none => false
      | some x => decide (m * (1 / 1000) < x))

/-- The third loop of `make_dm_iMat` (reconstruction.py:338-343): `i_valid_act` counts the rows written
into `valid_iMat`, which starts as zeros. -/
def compact {α : Type} : List α → List Bool → ℕ → List α → List α
  | row :: rows, v :: vs, k, acc =>
    if v then compact rows vs (k + 1) (acc.set k row) else compact rows vs k acc
  | _, _, _, acc => acc

/-- The unit command vector with a one at `i` (reconstruction.py:287-290). -/
def unit (n i : ℕ) : List ℚ := (zeros n).set i 1

/-- One row of the interaction matrix (reconstruction.py:285-312): poke actuator `i`, store `-1 *` the
response. -/
def pokeRow (nActs : ℕ) (surface : List ℚ → Except PyErr Arr2) (sense : Arr2 → List ℚ) (i : ℕ) :
    Except PyErr (List ℚ) :=
  match surface (unit nActs i) with
  | .error e => .error e
  | .ok a => .ok ((sense a).map fun x => -1 * x)

/-- The first loop of `make_dm_iMat` (reconstruction.py:285-312) and the compaction.  `surface` is `dmFrame` of this
mirror (with its shapes before dropping), `sense` the vector of all sensors' responses to a correction by that
surface (noise-free, see `Soapy.WfsFrame`); the row stored is `-1 *` the response.  Returns the flags and
the final matrix; `nMeas` is `totalWfsData`. -/
def makeDmIMat (nActs nMeas : ℕ) (surface : List ℚ → Except PyErr Arr2) (sense : Arr2 → List ℚ) :
    Except PyErr (List Bool × List (List ℚ)) :=
  match (List.range nActs).mapM (pokeRow nActs surface sense) with
  | .error e => .error e
  | .ok iMat =>
    match validFlags iMat with
    | .error e => .error e
    | .ok fl => .ok (fl, compact iMat fl 0 (List.replicate (fl.count true) (zeros nMeas)))

end Soapy.Mirror
