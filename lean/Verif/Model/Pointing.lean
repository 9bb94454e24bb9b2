/-
Model of moving a guide star while the simulation runs: the attributes `position` and `height` of `lineofsight.LineOfSight`, the parameters behind them and what the object keeps from when it was made.
-/
import Verif.Model.Los
import Verif.Model.Config

namespace Soapy.Pointing

open Soapy.Mirror Soapy.Los

/-- The parameters of a sensor that decide where its line of sight points: `GSPosition`, the copy `position` made by `calcParams` (confParse.py:829-830, arc seconds), `GSHeight` and `wavelength`. -/
structure Star where
  gsPosition : ℚ × ℚ
  position : ℚ × ℚ
  gsHeight : ℚ
  wavelength : ℚ
  deriving DecidableEq

/-- `WfsConfig.calcParams` (confParse.py:827-833). -/
def Star.calc (s : Star) : Star := { s with position := s.gsPosition }

/-- What does not change: direction of propagation, launch position in metres, `phase_pixel_scale`, `scrnSize`, `simSize`, altitudes of layers and mirrors (lineofsight.py:63-85), and `tau`, which stands for
`2π`. -/
structure Setup where
  up : Bool
  launch : ℚ × ℚ
  scale : ℚ
  scrn : ℕ
  simSize : ℕ
  layers : List ℚ
  mirrors : List ℚ
  tau : ℚ

/-- A line of sight: its configuration, what `__init__` copies from it (`source_altitude` and `wavelength`, lineofsight.py:68, 72) and what `calcInitParams` calculates (155-191). -/
structure Sight where
  star : Star
  source : ℚ
  wavelength : ℚ
  nOut : ℕ
  layerCoords : List (List ℚ × List ℚ)
  mirrorCoords : List (List ℚ × List ℚ)
  phs2Rad : ℚ

/-- The geometry `calcInitParams` works with (lineofsight.py:156-171, 211-230): the position is read from the configuration, the height of the source from the object. -/
def geomOf (u : Setup) (pos : ℚ × ℚ) (source outScale : ℚ) (nOut : ℕ) : Geom :=
  { up := u.up, angle := (Conf.asec2rad * pos.1, Conf.asec2rad * pos.2), launch := u.launch, source := source, diameter := nOut * outScale, scale := u.scale, scrn := u.scrn, nOut := nOut }

/-- `calcInitParams(out_pixel_scale, nx_out_pixels)` (lineofsight.py:139-200); `None` stands for the scale and the size of the simulation. -/
def calcInit (u : Setup) (s : Sight) (outScale : Option ℚ) (nOut : Option ℕ) : Sight :=
  let n := nOut.getD u.simSize
  let g := geomOf u s.star.position s.source (outScale.getD u.scale) n
  { s with
    nOut := n
    layerCoords := u.layers.map (metapupilCoords g)
    mirrorCoords := u.mirrors.map (metapupilCoords g)
    phs2Rad := u.tau / (s.wavelength * 10 ^ 9) }

/-- `LineOfSight(config, …, out_pixel_scale, nx_out_pixels)` (lineofsight.py:59-100). -/
def make (u : Setup) (c : Star) (outScale : Option ℚ) (nOut : Option ℕ) : Sight :=
  calcInit u { star := c, source := c.gsHeight, wavelength := c.wavelength, nOut := 0, layerCoords := [], mirrorCoords := [], phs2Rad := 0 } outScale nOut

/-- What can be done to a line of sight between two frames. -/
inductive Op where
  /-- `los.position = p`: the configuration has an attribute `position`, which is set (lineofsight.py:126-130) -/
  | position (p : ℚ × ℚ)
  /-- `los.height = h`: the configuration of a sensor has no attribute `height`, `GSHeight` is set (lineofsight.py:110-117) -/
  | height (h : ℚ)
  /-- `config.GSPosition = p` -/
  | gsPosition (p : ℚ × ℚ)
  /-- `config.wavelength = w` -/
  | wavelength (w : ℚ)
  /-- `los.calcInitParams(…)` -/
  | recalc (outScale : Option ℚ) (nOut : Option ℕ)
  /-- the configuration's `calcParams` and a new object: initialising the simulation again (simulation.py:179, 219-226) -/
  | reinit

/-- The line of sight after the operation. -/
def Op.apply (u : Setup) (s : Sight) : Op → Sight
  | .position p => { s with star := { s.star with position := p } }
  | .height h => { s with star := { s.star with gsHeight := h } }
  | .gsPosition p => { s with star := { s.star with gsPosition := p } }
  | .wavelength w => { s with star := { s.star with wavelength := w } }
  | .recalc sc n => calcInit u s sc n
  | .reinit => make u s.star.calc none none

/-- After several operations. -/
def run (u : Setup) (s : Sight) (ops : List Op) : Sight := ops.foldl (Op.apply u) s

/-- What `frame` uses (lineofsight.py:272-275, 297, 334-341, 381-382). -/
def frameCfg (u : Setup) (s : Sight) : Cfg :=
  { up := u.up, nOut := s.nOut, layerCoords := s.layerCoords, dmCoords := s.mirrorCoords, k := s.phs2Rad, scrn := u.scrn }

/-- `los.frame(scrns, correction)` in geometric mode: the arrays afterwards.  `zeroData` clears those of the previous frame (lineofsight.py:369), so `old` matters only for `phase_correction`. -/
def frame (u : Setup) (s : Sight) (old : State) (scrns correction : Option (List Arr2)) : Except PyErr State := Los.frame (frameCfg u s) old scrns correction

end Soapy.Pointing
