/-
Model of the influence functions of the mirror types in `DM.py`: Zernike, Karhunen–Loève and custom shapes, `Piezo`, `FastPiezo`, `GaussStack`,
`TT`; and of `interp.zoomWithMissingData`.
-/
import Verif.Model.Mirror
import Verif.Model.Tools

namespace Soapy.Influence

open Soapy.Mirror Soapy.Tools Soapy.Vec

/-- `nx_dm_elements` (DM.py:105). -/
def nxElements (pupil : ℕ) (diam telDiam : ℚ) : ℤ := pyRound ((pupil : ℚ) * diam / telDiam)

/-- `numpy.pad(shapes, ((0, 0), (pad, pad), (pad, pad)), mode="constant")`, one shape (DM.py:274-276, 301-303, 321-323). -/
def padShape (pad : ℕ) (a : Arr2) : Arr2 :=
  ⟨a.rows + 2 * pad, a.cols + 2 * pad, fun i j =>
    if pad ≤ i ∧ i < pad + a.rows ∧ pad ≤ j ∧ j < pad + a.cols then a.px (i - pad) (j - pad) else 0⟩

/-- `self.iMatShapes *= self.config.iMatValue`, one shape (DM.py:131-133). -/
def scaleShape (v : ℚ) (a : Arr2) : Arr2 := ⟨a.rows, a.cols, fun i j => a.px i j * v⟩

/-- Modal mirrors (`Zernike`, DM.py:311-323, and the end of `CustomShapes` and `KarhunenLoeve`): `raw` are the shapes over the mirror elements. -/
def modalShapes (pad : ℕ) (v : ℚ) (raw : List Arr2) : List Arr2 := raw.map fun a => scaleShape v (padShape pad a)

/-- `KarhunenLoeve.makeIMatShapes` (DM.py:284-303); `make` stands for `KL.make_kl`, given the number of shapes and the radial sampling.  Beyond 1000 actuators the misspelt attribute `self.nacts` is
read. -/
def klShapes (make : ℕ → ℕ → List Arr2) (nActs pad : ℕ) (v : ℚ) : Except PyErr (List Arr2) :=
  if nActs ≤ 500 then .ok (modalShapes pad v (make nActs 64))
  else if nActs ≤ 1000 then .ok (modalShapes pad v (make nActs 72))
  else .error .attributeError

/-- `numpy.linspace(-1, 1, n)[k]`. -/
def linspaceSym (n k : ℕ) : ℚ := if n ≤ 1 then -1 else -1 + 2 * (k : ℚ) / ((n : ℚ) - 1)

/-- `TT.makeIMatShapes` (DM.py:463-479): the two coordinates times `tt_amp`; `asec` is `ASEC2RAD`. -/
def ttShapes (asec telDiam : ℚ) (nx : ℕ) (v : ℚ) : List Arr2 :=
  let amp := -(asec * telDiam / 2) * 1000000000
  [scaleShape v ⟨nx, nx, fun _ j => linspaceSym nx j * amp⟩, scaleShape v ⟨nx, nx, fun i _ => linspaceSym nx i * amp⟩]

/-- Position of the centre of actuator `k` along one axis for `GaussStack` (DM.py:431-437): `valid_act_coords * actSpacing`. -/
def gaussPos (pupil xActs k : ℕ) : ℚ := (k : ℚ) * ((pupil : ℚ) / ((xActs : ℚ) - 1))

/-- `GaussStack.makeIMatShapes` (DM.py:420-444); `gauss nx width x y` is `aotools.gaussian2d`.  Actuators are numbered `x * xActs + y` (`Piezo.getActiveActs`, DM.py:341-355). -/
def gaussShapes (gauss : ℕ → ℚ → ℚ → ℚ → Arr2) (pupil xActs nx pad : ℕ) (v : ℚ) : Except PyErr (List Arr2) :=
  if xActs = 1 then .error .zeroDivisionError
  else .ok (modalShapes pad v ((List.range (xActs * xActs)).map fun k =>
    gauss nx ((pupil : ℚ) / ((xActs : ℚ) - 1) / 2) (gaussPos pupil xActs (k / xActs)) (gaussPos pupil xActs (k % xActs))))

/-! ### Piezo -/

/-- `dmSize` (DM.py:372, with `spcing` from 348): the mirror with one more actuator spacing on each side. -/
def piezoSize (nx xActs : ℕ) : ℕ := ((nx : ℤ) + 2 * pyRound ((nx : ℚ) / xActs)).toNat

/-- The grid of actuators with a border of one, actuator `k` pushed (DM.py:376-384). -/
def pokeGrid (xActs k : ℕ) : Arr2 :=
  ⟨xActs + 2, xActs + 2, fun a b => if a = k / xActs + 1 ∧ b = k % xActs + 1 then 1 else 0⟩

/-- `interp.zoom_rbs(grid, (n, n))` (interp.py:54-96) on a square real grid large enough for the order; `spl g` is the spline through `g`. -/
def zoomRbs (spl : Arr2 → ℚ → ℚ → ℚ) (g : Arr2) (n : ℕ) : Arr2 :=
  ⟨n, n, fun i j => spl g (linspace0 g.cols n i) (linspace0 g.rows n j)⟩

/-- `shapes[i] -= shapes[i].mean()` (DM.py:390). -/
def removeMean (a : Arr2) : Arr2 := ⟨a.rows, a.cols, fun i j => a.px i j - a.mean⟩

/-- The end of `Piezo.makeIMatShapes` (DM.py:392-406): crop or pad to the screen.  Equal sizes read `self.dm_shape`, which no mirror has before its first frame.  Returns the size of the shapes too. -/
def fitPiezo (scrn dm : ℕ) (shapes : List Arr2) : Except PyErr (ℕ × List Arr2) :=
  if dm = scrn then .error .attributeError
  else if scrn < dm then
    let coord := pyRound ((dm : ℚ) / 2 - (scrn : ℚ) / 2)
    let lo := sliceBound dm coord
    let len := sliceLen dm coord (-coord)
    .ok (len, shapes.map fun a => ⟨len, len, fun i j => a.px (lo + i) (lo + j)⟩)
  else
    let pad := (pyRound (((scrn : ℚ) - dm) / 2)).toNat
    .ok (dm + 2 * pad, shapes.map (padShape pad))

/-- `Piezo.makeIMatShapes` (DM.py:358-406), `Piezo.getActiveActs` (341-355) and the scaling (131-133). -/
def piezoShapes (spl : Arr2 → ℚ → ℚ → ℚ) (scrn nx xActs : ℕ) (v : ℚ) : Except PyErr (ℕ × List Arr2) :=
  if xActs = 0 then .error .zeroDivisionError
  else
    let dm := piezoSize nx xActs
    (fitPiezo scrn dm ((List.range (xActs * xActs)).map fun k => removeMean (zoomRbs spl (pokeGrid xActs k) dm))).bind
      fun r => .ok (r.1, r.2.map (scaleShape v))

/-! ### FastPiezo -/

/-- The padded grid of `FastPiezo.makeDMFrame` (DM.py:502-506).  `acts` are the numbers of the actuators that are left (distinct, so that assigning is adding to zero). -/
def fastGrid (xActs : ℕ) (v : ℚ) (acts : List ℕ) (cmds : List ℚ) : Arr2 :=
  ⟨xActs + 2, xActs + 2, fun a b =>
    (List.zipWith (fun k c => if a = k / xActs + 1 ∧ b = k % xActs + 1 then c * v else 0) acts cmds).sum⟩

/-- `dmFrame` of a `FastPiezo` (DM.py:482-513 and 148-197).  The surface of this frame goes through the rest of `dmFrame` like a single shape with command 1. -/
def fastFrame (spl : Arr2 → ℚ → ℚ → ℚ) (scrn dm xActs : ℕ) (v : ℚ) (acts : List ℕ) (screen : Arr2) (cmds : List ℚ) :
    Except PyErr Arr2 :=
  if fitsAxis acts.length cmds.length then
    dmFrame scrn dm 0 [zoomRbs spl (fastGrid xActs v acts (stretch cmds acts.length)) dm] screen [1]
  else .error .valueError

/-- Successive frames of a `FastPiezo`. -/
def runFast (spl : Arr2 → ℚ → ℚ → ℚ) (scrn dm xActs : ℕ) (v : ℚ) (acts : List ℕ) : Arr2 → List (List ℚ) → Except PyErr Arr2
  | screen, [] => .ok screen
  | screen, c :: cs => (fastFrame spl scrn dm xActs v acts screen c).bind fun s => runFast spl scrn dm xActs v acts s cs

/-! ### Custom shapes -/

/-- A float: `none` is NaN. -/
abbrev Flt := Option ℚ

/-- `a == b` for floats: NaN equals nothing. -/
def fltEq : Flt → Flt → Bool
  | some a, some b => decide (a = b)
  | _, _ => false

/-- `(numpy.arange(n) - n / 2. + 0.5) / (n / 2.)`, entry `k` (interp.py:176-183). -/
def cellCoord (n k : ℕ) : ℚ := ((k : ℚ) - (n : ℚ) / 2 + 1 / 2) / ((n : ℚ) / 2)

/-- `zoomWithMissingData` for one image (interp.py:141-201): the points handed to `griddata` (position and value) and the new positions.  The grids of positions have `cols × rows` entries, so that an image that
is not square raises `IndexError` when they are indexed with a mask of its shape (for `rows = cols` position `x` belongs to the second index). -/
def missingPoints (rows cols : ℕ) (px : ℕ → ℕ → Flt) (nonValid : Flt) : Except PyErr (List ((ℚ × ℚ) × Flt)) :=
  if rows ≠ cols then .error .indexError
  else .ok ((List.range rows).flatMap fun i => (List.range cols).filterMap fun j =>
    if fltEq (px i j) nonValid then none else some ((cellCoord rows j, cellCoord cols i), px i j))

/-- The zoomed image: `griddata` at the new positions. -/
def zoomMissing (griddata : List ((ℚ × ℚ) × Flt) → ℚ × ℚ → Flt) (rows cols : ℕ) (px : ℕ → ℕ → Flt) (nonValid : Flt) (n : ℕ) :
    Except PyErr (ℕ → ℕ → Flt) :=
  (missingPoints rows cols px nonValid).bind fun pts => .ok fun i j => griddata pts (cellCoord n j, cellCoord n i)

/-- One shape in `CustomShapes.makeIMatShapes` (DM.py:256-272) of an `rows × cols` image for `nx` mirror elements: interpolated if the size differs, zeros having been made NaN; at last NaN becomes zero. -/
def customShape (griddata : List ((ℚ × ℚ) × Flt) → ℚ × ℚ → Flt) (nx rows cols : ℕ) (px : ℕ → ℕ → Flt) : Except PyErr Arr2 :=
  (if rows ≠ nx ∨ cols ≠ nx then
      zoomMissing griddata rows cols (fun i j => if fltEq (px i j) (some 0) then none else px i j) none nx
    else .ok px).bind fun s => .ok ⟨nx, nx, fun i j => (s i j).getD 0⟩

/-- `CustomShapes.makeIMatShapes` (DM.py:237-276) on a file with images `file` of one size. -/
def customShapes (griddata : List ((ℚ × ℚ) × Flt) → ℚ × ℚ → Flt) (nActs nx pad rows cols : ℕ) (v : ℚ) (file : List (ℕ → ℕ → Flt)) :
    Except PyErr (List Arr2) :=
  if file.length < nActs then .error .assertionError
  else ((file.take nActs).mapM (customShape griddata nx rows cols)).map (modalShapes pad v)

end Soapy.Influence
