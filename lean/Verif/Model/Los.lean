/-
Model of `lineofsight.LineOfSight`: footprint geometry, coordinates, geometric frames, and the sequence of steps of physical propagation.
-/
import Verif.Model.Interp

namespace Soapy.Los

open Soapy.Mirror Soapy.Interp

/-- The geometric parameters of a line of sight (lineofsight.py:59-100, 139-171): propagation direction, field angle in radians (`ASEC2RAD * position`), launch
position in metres, `source_altitude` (0 means infinity), `output_phase_diameter`, `in_pixel_scale`, `nx_scrn_size`, `nx_out_pixels`. -/
structure Geom where
  up : Bool
  angle : ℚ × ℚ
  launch : ℚ × ℚ
  source : ℚ
  diameter : ℚ
  scale : ℚ
  scrn : ℕ
  nOut : ℕ

/-- Centre and size of the footprint at an altitude in metres, one axis (lineofsight.py:211-225). -/
def footprint (g : Geom) (angle launch : ℚ) (h : ℚ) : ℚ × ℚ :=
  let c := angle * h
  let c := if g.up then (if g.source = 0 then c + launch else c + launch * (1 - h / g.source)) else c
  let size := if g.source ≠ 0 then g.diameter * (1 - h / g.source) else g.diameter
  (c, size)

/-- The two coordinates of the footprint's edges on one axis in pixels of the screen (lineofsight.py:227-230). -/
def edges (g : Geom) (angle launch : ℚ) (h : ℚ) : ℚ × ℚ :=
  let (c, size) := footprint g angle launch h
  ((c - size / 2) / g.scale + g.scrn / 2, (c + size / 2) / g.scale + g.scrn / 2)

/-- `calculate_altitude_coords` (lineofsight.py:203-235): `(x1, x2, y1, y2)`. -/
def altitudeCoords (g : Geom) (h : ℚ) : ℚ × ℚ × ℚ × ℚ :=
  let x := edges g g.angle.1 g.launch.1 h
  let y := edges g g.angle.2 g.launch.2 h
  (x.1, x.2, y.1, y.2)

/-- The sample coordinates on a layer or mirror at altitude `h` (lineofsight.py:174-189): `linspace(x1, x2 - 1, n)` clipped to
`[0, nx_scrn_size - 1.000000001]`. -/
def metapupilCoords (g : Geom) (h : ℚ) : List ℚ × List ℚ :=
  let (x1, x2, y1, y2) := altitudeCoords g h
  let cl := clip 0 (g.scrn - 1000000001 / 1000000000)
  ((linspace x1 (x2 - 1) g.nOut).map cl, (linspace y1 (y2 - 1) g.nOut).map cl)

/-- An interpolated screen as an array. -/
def sampled (a : Arr2) (c : List ℚ × List ℚ) : Except PyErr Arr2 :=
  match interp false a c.1 c.2 with
  | .error e => .error e
  | .ok rows => .ok ⟨c.1.length, c.2.length, fun i j => (rows.getD i []).getD j 0⟩

/-- `for i in range(data.shape[0]): bilinear_interp(data[i], coords[i, 0], coords[i, 1], bufs[i])` (lineofsight.py:272-275, 334-337): more data than
buffers is an `IndexError`, buffers beyond the data are left alone. -/
def fill : List (List ℚ × List ℚ) → List Arr2 → List Arr2 → Except PyErr (List Arr2)
  | _, bufs, [] => .ok bufs
  | c :: cs, _ :: bs, d :: ds =>
    match sampled d c with
    | .error e => .error e
    | .ok s =>
      match fill cs bs ds with
      | .error e => .error e
      | .ok r => .ok (s :: r)
  | _, _, _ :: _ => .error .indexError

/-- `bufs.sum(0)`. -/
def sumImg (n : ℕ) (bufs : List Arr2) : Arr2 := ⟨n, n, fun i j => (bufs.map fun b => b.px i j).sum⟩

/-- The parameters used in every frame: coordinates on layers and mirrors, `phs2Rad` (a rational stands for `2π/λ`). -/
structure Cfg where
  up : Bool
  nOut : ℕ
  layerCoords : List (List ℚ × List ℚ)
  dmCoords : List (List ℚ × List ℚ)
  k : ℚ
  scrn : ℕ

/-- The arrays of a line of sight that survive between frames.  `efield` is the argument of the complex field, whose modulus is one in geometric
propagation. -/
structure State where
  phaseScreens : List Arr2
  corrScreens : List Arr2
  phaseCorr : Arr2
  phase : Arr2
  residual : Arr2
  efield : Arr2

/-- `zeroData` (lineofsight.py:253-260). -/
def zeroData (c : Cfg) (s : State) : State :=
  { s with
    efield := zero2 c.nOut
    phase := zero2 c.nOut
    phaseScreens := c.layerCoords.map fun _ => zero2 c.nOut
    corrScreens := c.dmCoords.map fun _ => zero2 c.nOut }

/-- `performCorrection` (lineofsight.py:327-348). -/
def performCorrection (c : Cfg) (s : State) (correction : List Arr2) : Except PyErr State :=
  match fill c.dmCoords s.corrScreens correction with
  | .error e => .error e
  | .ok bufs =>
    let raw := sumImg c.nOut bufs
    let pc : Arr2 := ⟨c.nOut, c.nOut, fun i j => raw.px i j * c.k⟩
    let residual : Arr2 := ⟨c.nOut, c.nOut, fun i j => (s.phase.px i j - pc.px i j) / c.k⟩
    .ok { s with
      corrScreens := bufs
      phaseCorr := pc
      efield := ⟨c.nOut, c.nOut, fun i j => s.efield.px i j - pc.px i j⟩
      residual := residual
      phase := ⟨c.nOut, c.nOut, fun i j => residual.px i j * c.k⟩ }

/-- `makePhase` in geometric mode (lineofsight.py:263-306). -/
def makePhase (c : Cfg) (s : State) (scrns : List Arr2) : Except PyErr State :=
  match fill c.layerCoords s.phaseScreens scrns with
  | .error e => .error e
  | .ok bufs =>
    let raw := sumImg c.nOut bufs
    let a : Arr2 := ⟨c.nOut, c.nOut, fun i j => raw.px i j * c.k⟩
    .ok { s with
      phaseScreens := bufs
      phase := ⟨c.nOut, c.nOut, fun i j => s.phase.px i j + a.px i j⟩
      efield := ⟨c.nOut, c.nOut, fun i j => s.efield.px i j + a.px i j⟩ }

/-- `frame` (lineofsight.py:351-392) in geometric mode.  `scrns`/`correction` are `none` for Python `None`.  (A single 2-d screen is reshaped to a stack of one first,
lineofsight.py:377-378.) -/
def frame (c : Cfg) (s : State) (scrns correction : Option (List Arr2)) : Except PyErr State :=
  let s := zeroData c s
  let first := match c.up, correction with
    | true, some corr => performCorrection c s corr
    | _, _ => .ok s
  match first with
  | .error e => .error e
  | .ok s =>
    let scr := scrns.getD (c.layerCoords.map fun _ => zero2 c.scrn)
    match makePhase c s scr with
    | .error e => .error e
    | .ok s =>
      let s := { s with residual := s.phase }
      match c.up, correction with
      | false, some corr => performCorrection c s corr
      | _, _ => .ok s

/-- Many frames. -/
def runFrames (c : Cfg) : State → List (Option (List Arr2) × Option (List Arr2)) → Except PyErr State
  | s, [] => .ok s
  | s, (a, b) :: fs =>
    match frame c s a b with
    | .error e => .error e
    | .ok s => runFrames c s fs

/-! ### Physical propagation -/

/-- What happens to the field: free propagation over a distance, or the phase of one screen applied. -/
inductive Act where
  | propagate (z : ℚ)
  | screen (i : ℕ)
  deriving DecidableEq, Repr

/-- The loop of `physical_atmosphere_propagation` (lineofsight.py:450-484) from index `i` on: `n` screens, `alts` the altitudes and `ids` the screens in the order used, `z` the
distance so far. -/
def physLoop (n : ℕ) (toInfinity : Bool) (alts : ℕ → ℚ) (ids : ℕ → ℕ) (ht htFinal : ℚ) : ℕ → ℕ → ℚ → List Act
  | 0, _, _ => []
  | fuel + 1, i, z =>
    .screen (ids i) ::
      (if i + 1 = n then
        (if toInfinity then [] else [.propagate (|htFinal - ht| - z)])
      else
        .propagate |alts (i + 1) - alts i| ::
          physLoop n toInfinity alts ids ht htFinal fuel (i + 1) (z + |alts (i + 1) - alts i|))

/-- `physical_atmosphere_propagation` (lineofsight.py:395-488): the sequence of operations on the field.  `alts` are the altitudes of the layers (at least as many
as screens), `n` the number of screens.  Without screens `phase_screens[0]` is an `IndexError`.  The list of altitudes may be longer than the number of screens
(`scrnHeights` is cut to `scrnNo`, so it is not); if it is longer, `layer_altitudes[::-1]` starts with layers that have no screen. -/
def physical (up : Bool) (source : ℚ) (alts : List ℚ) (n : ℕ) : Except PyErr (List Act) :=
  if n = 0 ∨ alts.length < n then .error .indexError
  else
    let a : ℕ → ℚ := fun i => alts.getD i 0
    let ht := if up then 0 else a (n - 1)
    let htFinal := if up then source else 0
    let scrnAlts : ℕ → ℚ := if up then a else fun i => a (alts.length - 1 - i)
    let ids : ℕ → ℕ := if up then fun i => i else fun i => n - 1 - i
    let z := |scrnAlts 0 - ht|
    .ok ((if ht ≠ scrnAlts 0 then [.propagate z] else []) ++
      physLoop n (up && decide (htFinal = 0)) scrnAlts ids ht htFinal n 0 (if ht ≠ scrnAlts 0 then z else 0))

end Soapy.Los
