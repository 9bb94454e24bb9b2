/-
Header of saved files: `makeSaveHeader` (simulation.py:975-1045), made once by `initSaveData` (simulation.py:709) and given to every file
(simulation.py:850-972, reconstruction.py:120, 177, 182, 531, 536).
-/
import Verif.Model.Py
import Verif.Model.AtmosStrength

namespace Soapy.Header

open Soapy

/-- A value on a card.  Lists are printed (`str(list(…))`, simulation.py:1014-1043); simplified to the list itself, as `ast.literal_eval` of the text gives it back. -/
inductive Val where
  | str (s : String)
  | int (n : ℤ)
  | real (x : ℝ)
  | bool (b : Bool)
  | undefined
  | ints (l : List ℤ)
  | reals (l : List ℝ)
  | strs (l : List String)

/-- `astropy.io.fits.Header`: cards in order. -/
abbrev Cards := List (String × Val)

/-- Printable ASCII. -/
def printable (s : String) : Bool := s.toList.all fun c => 32 ≤ c.toNat && c.toNat ≤ 126

/-- Which values the library takes: text must be printable ASCII (`Card.value` of astropy, not part of the repository). -/
def allowed : Val → Bool
  | .str s => printable s
  | .strs l => l.all printable
  | _ => true

/-- Overwrite the card or append one. -/
def put (k : String) (v : Val) : Cards → Cards
  | [] => [(k, v)]
  | c :: cs => if c.1 = k then (k, v) :: cs else c :: put k v cs

/-- `header[k] = v`; `ValueError` for text which a FITS header cannot hold. -/
def setCard (k : String) (v : Val) (h : Cards) : Except PyErr Cards := if allowed v then .ok (put k v h) else .error .valueError

/-- `header[k]`. -/
def card (k : String) : Cards → Option Val
  | [] => none
  | c :: cs => if c.1 = k then some c.2 else card k cs

/-- The parameters of a mirror which are written (simulation.py:1008-1012). -/
structure DmC where
  nxActuators : ℤ
  svdConditioning : ℝ
  type : String
  gain : ℝ

/-- The parameters of a sensor which are written (simulation.py:1031-1037). -/
structure WfsC where
  pos : ℝ × ℝ
  nxSubaps : ℤ
  subapFOV : ℝ
  pxlsPerSubap : ℕ

/-- The parameters which are written or which decide what the written ones mean.  `dms` and `wfss` are the first `nDM` and `nGS` groups. -/
structure Cfg where
  simName : Option String
  telDiam : ℝ
  obsDiam : ℝ
  loopTime : ℝ
  nIters : ℤ
  dms : List DmC
  wfss : List WfsC
  scrnNo : ℕ
  scrnHeights : List ℝ
  windSpeeds : List ℝ
  scrnStrengths : List ℝ
  r0 : ℝ
  tau0 : Option ℝ

/-- Several cards one after the other. -/
def setAll : List (String × Val) → Cards → Except PyErr Cards
  | [], h => .ok h
  | c :: cs, h => (setCard c.1 c.2 h).bind (setAll cs)

/-- `"PIXARC{:d}".format(w)` (simulation.py:1037). -/
def pixArc (w : ℕ) : String := "PIXARC" ++ toString w

/-- `header["RUNID"] = self.config.sim.simName` (simulation.py:991); `None` leaves the value undefined. -/
def runId : Option String → Val
  | none => .undefined
  | some s => .str s

/-- The cards in the order in which they are set (simulation.py:986-1043).  `ver` is `__version__`, `now` the time as text, `acts` and `slopes` are
`totalActs` and `totalWfsData` at that moment. -/
noncomputable def cards (ver now : String) (c : Cfg) (acts slopes : ℕ) : List (String × Val) :=
  [("INSTRUME", .str "SOAPY"), ("SVER", .str ver), ("RTCNAME", .str "SOAPY"), ("RTCVER", .str ver), ("TELESCOP", .str "SOAPY"),
    ("RUNID", runId c.simName), ("LOOP", .bool true), ("DATE-OBS", .str now),
    ("TELDIAM", .real c.telDiam), ("TELOBS", .real c.obsDiam), ("FR", .real (1 / c.loopTime)),
    ("NBDM", .int c.dms.length), ("DMNACTU", .int acts),
    ("DMACTS", .ints (c.dms.map DmC.nxActuators)), ("DMCOND", .reals (c.dms.map DmC.svdConditioning)), ("DMTYPE", .strs (c.dms.map DmC.type)), ("DMGAIN", .reals (c.dms.map DmC.gain)),
    ("NBSCRNS", .int c.scrnNo), ("SCRNALT", .reals c.scrnHeights), ("WINDSPD", .reals c.windSpeeds),
    ("NBWFS", .int c.wfss.length), ("NSUB", .int (slopes / 2 : ℕ)), ("NSLOP", .int slopes)] ++
  (c.wfss.zipIdx.map fun w => (pixArc w.2, .real (w.1.subapFOV / w.1.pxlsPerSubap))) ++
  [("WFSPOSX", .reals (c.wfss.map fun w => w.pos.1)), ("WFSPOSY", .reals (c.wfss.map fun w => w.pos.2)), ("WFSSUBX", .ints (c.wfss.map WfsC.nxSubaps)), ("WFSSUBY", .ints (c.wfss.map WfsC.nxSubaps)),
    ("NFRAMES", .int c.nIters)]

/-- `makeSaveHeader` (simulation.py:975-1045).  `FR` and the pixel scales are quotients: 0 below raises (Python floats). -/
noncomputable def makeSaveHeader (ver now : String) (c : Cfg) (acts slopes : ℕ) : Except PyErr Cards :=
  if c.loopTime = 0 ∨ ∃ w ∈ c.wfss, w.pxlsPerSubap = 0 then .error .zeroDivisionError else setAll (cards ver now c acts slopes) []

/-- The simulation as far as it concerns what the header says: the configuration object, the stored header, the wind speeds of the atmosphere object,
which actuators of each mirror are commanded, the number of measurements of each sensor. -/
structure State where
  cfg : Cfg
  header : Cards
  winds : List ℝ
  acts : List (List Bool)
  meas : List ℕ

/-- `aoinit` (simulation.py:157-316): the atmosphere cuts the heights (atmosphere.py:115-116) and rescales its own wind speeds (atmosphere.py:125-128), sensors and mirrors are counted
(199-217, 226-249), then the header is made (709).  `nActs` and `meas` are the `n_acts` and `n_measurements` of the objects. -/
noncomputable def aoinit (ver now : String) (c : Cfg) (nActs meas : List ℕ) : Except PyErr State :=
  let c' : Cfg := { c with scrnHeights := c.scrnHeights.take c.scrnNo }
  (makeSaveHeader ver now c' nActs.sum meas.sum).map fun h =>
    ⟨c', h, Atmos.winds c.scrnNo c.r0 c.tau0 c.windSpeeds c.scrnStrengths, nActs.map fun n => List.replicate n true, meas⟩

/-- What may happen between initialisation and saving, as far as it concerns the header. -/
inductive Step where
  /-- Another gain, in the GUI (gui.py:568) or in a script; the reconstructor reads it in each frame (reconstruction.py:420-460). -/
  | gain (dm : ℕ) (g : ℝ)
  /-- Another position of a guide star in the configuration. -/
  | move (wfs : ℕ) (pos : ℝ × ℝ)
  /-- `makeIMat` (simulation.py:349-358): actuators which move no sensor are no longer commanded. -/
  | calibrate (valid : List (List Bool))

/-- No step touches the header. -/
def step (s : State) : Step → State
  | .gain i g => { s with cfg := { s.cfg with dms := s.cfg.dms.modify i fun d => { d with gain := g } } }
  | .move i p => { s with cfg := { s.cfg with wfss := s.cfg.wfss.modify i fun w => { w with pos := p } } }
  | .calibrate v => { s with acts := v }

/-- `totalActs` after calibration (simulation.py:353-356): the length of the command vector. -/
def commands (s : State) : ℕ := (s.acts.map fun l => l.count true).sum

end Soapy.Header
