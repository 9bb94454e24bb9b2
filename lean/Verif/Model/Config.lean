/-
Model of the configuration (`confParse.py`): derived parameters and loading of parameters.
-/
import Verif.Model.Los

namespace Soapy.Conf

/-! ### Derived parameters -/

/-- `RAD2ASEC` (confParse.py:47). -/
def rad2asec : ℚ := 206264849159 / 1000000

/-- `ASEC2RAD` (confParse.py:48). -/
def asec2rad : ℚ := 1 / rad2asec

/-- The parameters of a laser guide star used here: `elongationDepth`, `launchPosition` (in pupil radii). -/
structure Lgs where
  depth : ℚ
  launch : ℚ × ℚ
  deriving DecidableEq

/-- The parameters of a wavefront sensor read or written by `PY_Configurator.calcParams`. -/
structure Wfs where
  pos : ℚ × ℚ
  height : ℚ
  lgs : Option Lgs
  physical : Bool
  exposure : Option ℚ
  nxSubaps : ℕ
  fieldStop : Bool
  deriving DecidableEq

/-- The parameters of a science camera read or written. -/
structure Sci where
  pos : ℚ × ℚ
  pxlScale : Option ℚ
  fov : Option ℚ
  pxls : ℕ
  deriving DecidableEq

/-- The derived parameters of the simulation. -/
structure Derived where
  pxlScale : ℚ
  simPad : ℕ
  simSize : ℕ
  scrnSize : ℕ
  deriving DecidableEq

/-- A configuration. `dms` are the diameters of the mirrors; `derived` is `none` before the first calculation. -/
structure Config where
  pupil : ℕ
  oversize : ℚ
  nGS : ℕ
  nSci : ℕ
  loopTime : ℚ
  telDiam : ℚ
  heights : List ℚ
  scrnNo : ℕ
  L0 : Option (List ℚ)
  wfss : List Wfs
  dms : List (Option ℚ)
  scis : List Sci
  derived : Option Derived
  deriving DecidableEq

/-- Apply `f` to every element; the first error ends it. -/
def mapE {α β : Type} (f : α → Except PyErr β) : List α → Except PyErr (List β)
  | [] => .ok []
  | a :: as => (f a).bind fun b => (mapE f as).bind fun bs => .ok (b :: bs)

/-- `SciConfig.calcParams` (confParse.py:1171-1184), exact arithmetic.  (The other `calcParams` run here, 650-656, 827-833, 1040-1043, only convert types.) -/
def sciCalc (s : Sci) : Except PyErr Sci :=
  match s.pxlScale, s.fov with
  | none, none => .error .configurationError
  | none, some f => if s.pxls = 0 then .error .zeroDivisionError else .ok { s with pxlScale := some (f / s.pxls) }
  | some p, fov =>
    if fov = some (p * s.pxls) then
      (if s.pxls = 0 then .error .zeroDivisionError else .ok { s with pxlScale := some (p * s.pxls / s.pxls) })
    else .ok { s with fov := some (p * s.pxls) }

/-- `max()` of an array; 0 for an empty list of positions (confParse.py:190-193). -/
def maxOf : List ℚ → ℚ
  | [] => 0
  | x :: xs => xs.foldl max x

/-- The shift added to both coordinates of an elongated laser guide star (confParse.py:177-184). -/
def elongShift (tel : ℚ) (w : Wfs) (l : Lgs) : ℚ :=
  let L := max |l.launch.1| |l.launch.2| * tel / 2
  let H := w.height
  let t := fun dh : ℚ => max w.pos.1 w.pos.2 - dh * L / (H * (H + dh)) * rad2asec
  max (t (-1 * l.depth / 2)) (t (l.depth / 2))

/-- What one guide star contributes to `gsPos` (confParse.py:168-185).  A beacon (or one end of it) at height zero makes numpy divide by zero; the resulting infinity or NaN is
rejected by `int(round(...))` (199), after the heights of the layers have been looked at.  (`OverflowError` stands for both: for NaN it is `ValueError`.) -/
def gsCoords (tel : ℚ) (w : Wfs) : Except PyErr (List ℚ) :=
  match w.lgs with
  | none => .ok [|w.pos.1|, |w.pos.2|]
  | some l =>
    if l.depth = 0 then .ok [|w.pos.1|, |w.pos.2|]
    else if w.height = 0 ∨ w.height + -1 * l.depth / 2 = 0 ∨ w.height + l.depth / 2 = 0 then .error .overflowError
    else .ok [|w.pos.1 + elongShift tel w l|, |w.pos.2 + elongShift tel w l|]

/-- `simPad` (confParse.py:162-163). -/
def simPadOf (pupil : ℕ) (oversize : ℚ) : ℕ := (max (pyRound (pupil * ((oversize - 1) / 2))) 1).toNat

/-- `scrnSize` (confParse.py:195-213) from the pixel scale, the greatest height, `maxGSPos` and the simulation size. -/
def scrnSizeOf (pxlScale hMax maxPos : ℚ) (simSize : ℕ) (physical : Bool) : ℕ :=
  let n := (⌈2 * pxlScale * hMax * |maxPos| * asec2rad⌉ + (simSize : ℤ)).toNat
  let n := if n % 2 ≠ 0 then n + 1 else n
  if physical then n * 2 else n

/-- All numbers in `gsPos` (confParse.py:168-188): coordinates of guide stars, made positive, then those of science targets, as they are. -/
def positions (c : Config) (scis : List Sci) : Except PyErr (List ℚ) :=
  (mapE (gsCoords c.telDiam) (c.wfss.take c.nGS)).bind fun gs =>
    .ok (gs.flatten ++ ((scis.take c.nSci).map fun s => [s.pos.1, s.pos.2]).flatten)

/-- What happens to a wavefront sensor's parameters (confParse.py:216-218, 231-234); an exposure time of `None` or 0 is replaced. -/
def wfsCalc (loopTime : ℚ) (w : Wfs) : Wfs :=
  { w with
    exposure := if w.exposure = none ∨ w.exposure = some 0 then some loopTime else w.exposure
    fieldStop := if w.nxSubaps = 1 ∧ w.fieldStop = false then true else w.fieldStop }

/-- `PY_Configurator.calcParams` (confParse.py:138-239). -/
def calcParams (c : Config) : Except PyErr Config :=
  (mapE sciCalc c.scis).bind fun scis =>
    if c.telDiam = 0 then .error .zeroDivisionError
    else if c.wfss.length < c.nGS ∨ scis.length < c.nSci then .error .indexError
    else if c.heights = [] then .error .valueError
    else (positions c scis).bind fun ps =>
        let scale := c.pupil / c.telDiam
        let pad := simPadOf c.pupil c.oversize
        let simSize := c.pupil + 2 * pad
        let scrn := scrnSizeOf scale (maxOf c.heights) (maxOf ps) simSize ((c.wfss.take c.nGS).any fun w => w.physical)
        .ok { c with
          scis := scis
          wfss := c.wfss.map (wfsCalc c.loopTime)
          L0 := some (c.L0.getD (List.replicate c.scrnNo 10000000000))
          dms := c.dms.map fun d => some (d.getD c.telDiam)
          derived := some ⟨scale, pad, simSize, scrn⟩ }

/-- The geometry of the line of sight of a sensor or camera looking down in direction `pos` at a source of height `source`, with the default output (lineofsight.py:62-77, 150-171). -/
def losGeom (d : Derived) (pos : ℚ × ℚ) (source : ℚ) : Los.Geom :=
  { up := false, angle := (asec2rad * pos.1, asec2rad * pos.2), launch := (0, 0), source := source
    diameter := d.simSize * (1 / d.pxlScale), scale := 1 / d.pxlScale, scrn := d.scrnSize, nOut := d.simSize }

/-! ### Elongated beacons -/

/-- `WFS.calcElongPos` (wfs/wfs.py:335-362), one axis: `pos` is the guide star position in arc seconds, `xl` the launch position in metres, `h` the height of the layer. -/
def elongPos (pos xl H h : ℚ) : ℚ :=
  let dh := h - H
  let gsPos := pos * rad2asec
  let theta := gsPos - dh * xl / (H * (H + dh))
  (gsPos + theta) * rad2asec

/-! ### Loading -/

/-- Values in a parameter file: anything without items, sequences, dictionaries with integer keys. -/
inductive Val where
  | atom (n : ℕ)
  | seq (l : List Val)
  | dict (d : List (ℕ × Val))

/-- `value[k]`. -/
def Val.item : Val → ℕ → Except PyErr Val
  | .atom _, _ => .error .typeError
  | .seq l, k => match l[k]? with | some v => .ok v | none => .error .indexError
  | .dict d, k => match d.lookup k with | some v => .ok v | none => .error .keyError

/-- The lists of a configuration class; `allowed` is `allowedAttrs` (confParse.py:568-571 etc.). -/
structure Schema where
  required : List String
  optional : List (String × Val)
  calculated : List String

def Schema.allowed (s : Schema) : List String := s.required ++ s.calculated ++ ["N"] ++ s.optional.map Prod.fst

/-- The attributes of an object. -/
abbrev Attrs := String → Option Val

/-- `__setattr__` (confParse.py:436-440). -/
def setattr (s : Schema) (a : Attrs) (name : String) (v : Val) : Except PyErr Attrs :=
  if name ∈ s.allowed then .ok fun n => if n = name then some v else a n else .error .configurationError

/-- `configDict[param]` or `configDict[param][N]`. -/
def fetch (file : String → Option Val) (N : Option ℕ) (p : String) : Except PyErr Val :=
  match file p with
  | none => .error .keyError
  | some v => match N with | none => .ok v | some k => v.item k

/-- One required parameter (confParse.py:368-378, 392-399): every failure becomes a `ConfigurationError`. -/
def loadRequired (s : Schema) (file : String → Option Val) (N : Option ℕ) (a : Attrs) (p : String) : Except PyErr Attrs :=
  match fetch file N p with
  | .ok v => setattr s a p v
  | .error _ => .error .configurationError

/-- One optional parameter (confParse.py:380-390, 401-408): the default after a `KeyError`. -/
def loadOptional (s : Schema) (file : String → Option Val) (N : Option ℕ) (a : Attrs) (p : String × Val) : Except PyErr Attrs :=
  match fetch file N p.1 with
  | .ok v => setattr s a p.1 v
  | .error .keyError => setattr s a p.1 p.2
  | .error _ => .error .configurationError

/-- Loop with a step that may fail. -/
def foldE {α β : Type} (f : β → α → Except PyErr β) : β → List α → Except PyErr β
  | b, [] => .ok b
  | b, a :: as => (f b a).bind fun b => foldE f b as

/-- `loadParams` (confParse.py:365-410) up to the call of the class's own `calcParams`. -/
def loadParams (s : Schema) (N : Option ℕ) (file : String → Option Val) (a : Attrs) : Except PyErr Attrs :=
  (foldE (loadRequired s file N) a s.required).bind fun a => foldE (loadOptional s file N) a s.optional

end Soapy.Conf
