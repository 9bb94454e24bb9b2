/-
Models of small helpers: laser launch geometry (`LGS.py`), FFT helpers (`AOFFT.py`), zooming (`interp.py`), learning (`reconstruction.py`) and the pupil mask (`simulation.py`).
-/
import Verif.Model.Config
import Mathlib.Algebra.BigOperators.Fin

namespace Soapy.Tools

open Soapy.Mirror

/-! ### Laser launch -/

/-- `lgsOALaunchMetaPupilPos` (LGS.py:281-301), one axis; `none` stands for the infinity or NaN of a beacon at height 0 (a numpy division). -/
def launchPos (gs launch lgsHt layer : ℚ) : Option ℚ :=
  if lgsHt = 0 then none else some (launch + layer * (gs / Conf.rad2asec) - layer * launch / lgsHt)

/-- The check in `initLos` (LGS.py:107-113): is a warning given?  `ps` are the positions of all layers on both axes in metres. -/
def farWarning (ps : List ℚ) (pxlScale : ℚ) (pupil simSize : ℕ) : Bool := decide (2 * (Conf.maxOf ps * pxlScale + (pupil : ℚ) / 2) > simSize)

/-! ### FFTs -/

/-- `l[i::p]`, for `p > 0` (AOFFT.py:263, 279). -/
def stride {α : Type} (l : List α) (i p : ℕ) : List α := (List.range ((l.length - i + p - 1) / p)).filterMap fun k => l[i + k * p]?

/-- `out[i::p] = part`: position `k` of the result (AOFFT.py:290). -/
def unstride {α : Type} (out part : List α) (i p : ℕ) : List α := out.mapIdx fun k x => if i ≤ k ∧ (k - i) % p = 0 then part.getD ((k - i) / p) x else x

/-- `mpFFT.fft` (AOFFT.py:273-293): process `i` transforms the rows `i::p`, the results are written back in order; `f` transforms one row.  The processes only share the queue each has of its own.  Zero
rows for a process are refused when its FFT is planned (263-268; behaviour of pyfftw). -/
def mpFFT {α : Type} (f : α → α) (blank : α) (p : ℕ) (rows : List α) : Except PyErr (List α) :=
  if (List.range p).any fun i => (stride rows i p).isEmpty then .error .valueError
  else .ok ((List.range p).foldl (fun out i => unstride out ((stride rows i p).map f) i p) (rows.map fun _ => blank))

/-- `ftShift2d` on the last axis (AOFFT.py:303-323) without output array: index of the input element that ends at position `i` of an axis of length `n`; the two parts are reversed in place. -/
def ftShiftIdx (n i : ℕ) : ℕ :=
  let h := (pyRound ((n : ℚ) / 2)).toNat
  if i < h then h - 1 - i else h + (n - 1 - i)

/-- `ftShift2d` on an image. -/
def ftShift (a : Arr2) : Arr2 := ⟨a.rows, a.cols, fun i j => a.px (ftShiftIdx a.rows i) (ftShiftIdx a.cols j)⟩

/-! ### Zoom -/

/-- `numpy.linspace(0, n - 1, m)[k]` (interp.py:25-26). -/
def linspace0 (n m k : ℕ) : ℚ := if m ≤ 1 then 0 else (k : ℚ) * ((n : ℚ) - 1) / ((m : ℚ) - 1)

/-- Evaluation of the spline at a point: FITPACK moves points outside the grid to its edge.  `s` is the spline on the grid. -/
def clampEval (rows cols : ℕ) (s : ℚ → ℚ → ℚ) (x y : ℚ) : ℚ := s (max 0 (min x ((rows : ℚ) - 1))) (max 0 (min y ((cols : ℚ) - 1)))

/-- `interp.zoom(array, (xSize, ySize))` (interp.py:4-52).  `complex` says whether the array is complex; the result is `none` for Python's `None`: that branch returns nothing.  At least four points
per axis are needed (cubic). -/
def zoom (complex : Bool) (rows cols : ℕ) (s : ℚ → ℚ → ℚ) (xSize ySize : ℕ) : Except PyErr (Option Arr2) :=
  if rows < 4 ∨ cols < 4 then .error .valueError
  else if complex then .ok none
  else .ok (some ⟨ySize, xSize, fun i j => clampEval rows cols s (linspace0 cols ySize i) (linspace0 rows xSize j)⟩)

/-! ### Learning -/

/-- `row[a:b] = v` on a row of `n` numbers; a value of another length is refused (a value of length one is not distinguished here). -/
def assignSlice (row : List ℚ) (a b : ℕ) (v : List ℚ) : Except PyErr (List ℚ) :=
  let lo := min a row.length
  let hi := max lo (min b row.length)
  if hi - lo ≠ v.length then .error .valueError
  else .ok (row.take lo ++ v ++ row.drop hi)

/-- One frame of `LearnAndApply.learn` (reconstruction.py:576-578): sensor `j` writes at `j` times its own number of measurements. -/
def learnFrame (row : List ℚ) (j : ℕ) : List (List ℚ) → Except PyErr (List ℚ)
  | [] => .ok row
  | m :: ms => (assignSlice row (j * m.length) ((j + 1) * m.length) m).bind fun row => learnFrame row (j + 1) ms

/-- The recorded row (reconstruction.py:570-578): zeros of length `totalWfsData`, then the sensors in order. -/
def learnRow (ms : List (List ℚ)) : Except PyErr (List ℚ) := learnFrame (List.replicate ((ms.map List.length).sum) 0) 0 ms

/-- `numpy.cov` (reconstruction.py:608) of two columns over `k` frames. -/
def cov {k : ℕ} (x y : Fin k → ℚ) : ℚ := (∑ t, (x t - (∑ u, x u) / k) * (y t - (∑ u, y u) / k)) / ((k : ℚ) - 1)

/-- `Conoff[i, j]` (reconstruction.py:609-610) with `split = 2 * n_subaps[0]`. -/
def conoff {k : ℕ} (rows : Fin k → List ℚ) (split i j : ℕ) : ℚ := cov (fun t => (rows t).getD i 0) (fun t => (rows t).getD (split + j) 0)

/-! ### Pupil mask -/

/-- `aotools.circle(radius, size)` at pixel `(i, j)` (used in simulation.py:1173-1179): 1 where the centre of the pixel is within the radius of the middle. -/
def circle (r : ℚ) (size i j : ℕ) : ℚ :=
  let x := (i : ℚ) + 1 / 2 - (size : ℚ) / 2
  let y := (j : ℚ) + 1 / 2 - (size : ℚ) / 2
  if x * x + y * y ≤ r * r then 1 else 0

/-- Data of a mask file or array: two-dimensional or not. -/
inductive Data where
  | image (a : Arr2)
  | other

/-- `config.tel.mask`: the word circle (with `obsDiam`), the name of a file, or an array. -/
inductive MaskCfg where
  | circle (obs : Option ℚ)
  | file (d : Option Data)
  | array (d : Data)

/-- First part of `make_mask` (simulation.py:1172-1193): draw, read or copy the mask.  `spl` gives the spline through an image (used by `zoom`).  Comparing an array with the word "circle" (1172) is
taken to be false; newer versions of numpy raise instead. -/
def loadMask (spl : Arr2 → ℚ → ℚ → ℚ) (pupil simSize : ℕ) (pxlScale : ℚ) : MaskCfg → Except PyErr Data
  | .circle none => .ok (.image ⟨simSize, simSize, circle ((pupil : ℚ) / 2) simSize⟩)
  | .circle (some o) => .ok (.image ⟨simSize, simSize, fun i j => circle ((pupil : ℚ) / 2) simSize i j - circle (o * pxlScale / 2) simSize i j⟩)
  | .file none => .error .ioError
  | .file (some .other) => .error .indexError
  | .file (some (.image a)) =>
    if a.rows = pupil ∧ a.cols = pupil then .ok (.image a)
    else (zoom false a.rows a.cols (spl a) pupil pupil).bind fun z => match z with
      | none => .error .typeError
      | some z => .ok (.image ⟨z.rows, z.cols, fun i j => (pyRound (z.px i j) : ℚ)⟩)
  | .array d => .ok d

/-- Second part of `make_mask` (simulation.py:1195-1204): check the size and pad. -/
def placeMask (pupil simSize pad : ℕ) : Data → Except PyErr Arr2
  | .other => .error .valueError
  | .image a =>
    if ¬ (a.rows = pupil ∧ a.cols = pupil) ∧ ¬ (a.rows = simSize ∧ a.cols = simSize) then .error .valueError
    else if a.rows = simSize ∧ a.cols = simSize then .ok a
    else .ok ⟨a.rows + 2 * pad, a.cols + 2 * pad, fun i j => if pad ≤ i ∧ i < pad + a.rows ∧ pad ≤ j ∧ j < pad + a.cols then a.px (i - pad) (j - pad) else 0⟩

/-- `make_mask` (simulation.py:1162-1204). -/
def makeMask (spl : Arr2 → ℚ → ℚ → ℚ) (pupil simSize pad : ℕ) (pxlScale : ℚ) (cfg : MaskCfg) : Except PyErr Arr2 :=
  (loadMask spl pupil simSize pxlScale cfg).bind (placeMask pupil simSize pad)

end Soapy.Tools
