/-
Model of a whole simulation: mirrors (`Soapy.Mirror`), lines of sight (`Soapy.Los`), sensors, interaction matrix (`Soapy.Persist`), reconstructor and loop (`Soapy.Loop`) put together as `Sim.aoinit`, `Sim.makeIMat` and
`Sim.loopFrame` do.

Simplifications: geometric propagation; sensors that are read in every frame, without noise, and whose measurements are linear in the phase (the gradient sensor is, see `C52`; the mean over many sensors of another kind is not);
mirrors without rotation; exact arithmetic.
-/
import Verif.Model.Los
import Verif.Model.Loop
import Verif.Model.Persist
import Mathlib.Algebra.Group.Prod
import Mathlib.Algebra.Group.Pi.Basic
import Mathlib.Algebra.Order.Ring.Rat

namespace Soapy.Whole

open Soapy.Mirror Soapy.Los

/-- A sensor with linear measurements: its line of sight (wfs.py:194-208), the factor from nanometres to phase, the number of measurements, and the weight of every pixel of the phase in every measurement
(gradient.py:139-160). -/
structure LinWfs where
  geom : Geom
  k : ℚ
  nMeas : ℕ
  coef : ℕ → ℕ → ℕ → ℚ

/-- Coordinates of a sensor on layers and mirrors (lineofsight.py:139-189). -/
def LinWfs.cfg (w : LinWfs) (layerAlts dmAlts : List ℚ) : Cfg :=
  ⟨w.geom.up, w.geom.nOut, layerAlts.map (metapupilCoords w.geom), dmAlts.map (metapupilCoords w.geom), w.k, w.geom.scrn⟩

/-- The arrays of a new line of sight (lineofsight.py:191-201).  They do not matter (C31: memoryless). -/
def blank : Los.State := ⟨[], [], zero2 0, zero2 0, zero2 0, zero2 0⟩

/-- `WFS.frame` (wfs.py:395-466) for a linear sensor. -/
def LinWfs.frame (w : LinWfs) (layerAlts dmAlts : List ℚ) (scrns corr : Option (List Arr2)) : Except PyErr (List ℚ) :=
  match Los.frame (w.cfg layerAlts dmAlts) blank scrns corr with
  | .error e => .error e
  | .ok t => .ok ((List.range w.nMeas).map fun q => ∑ i ∈ Finset.range w.geom.nOut, ∑ j ∈ Finset.range w.geom.nOut, w.coef q i j * t.phase.px i j)

/-- All sensors one after the other (`Sim.runWfs_noMP`, simulation.py:385-408; reconstruction.py:296-306). -/
def runWfs (layerAlts dmAlts : List ℚ) (scrns corr : Option (List Arr2)) : List LinWfs → Except PyErr (List ℚ)
  | [] => .ok []
  | w :: ws =>
    match w.frame layerAlts dmAlts scrns corr with
    | .error e => .error e
    | .ok a =>
      match runWfs layerAlts dmAlts scrns corr ws with
      | .error e => .error e
      | .ok b => .ok (a ++ b)

/-- A stack of screens (first component, one per layer) and a stack of corrections (second component, one per mirror), as functions of index and pixel. -/
abbrev Stack := (ℕ → ℕ → ℕ → ℚ) × (ℕ → ℕ → ℕ → ℚ)

/-- A surface of mirror `k` as the stack in which all other corrections are zero: what `closed_correction[k] = …` writes (simulation.py:496-509; reconstruction.py:281-294). -/
def slot (scrn k : ℕ) (a : Arr2) : Stack := (0, fun m i j => if m = k ∧ i < scrn ∧ j < scrn then a.px i j else 0)

/-- A stack as the three-dimensional array it stands for. -/
def layers (scrn n : ℕ) (f : ℕ → ℕ → ℕ → ℚ) : List Arr2 := (List.range n).map fun l => ⟨scrn, scrn, f l⟩

/-- A simulation: size of the screens, altitudes of layers and mirrors, sensors. -/
structure Optics where
  scrn : ℕ
  layerAlts : List ℚ
  dmAlts : List ℚ
  wfss : List LinWfs

/-- `totalWfsData` (simulation.py:199, 217). -/
def Optics.totalMeas (o : Optics) : ℕ := (o.wfss.map LinWfs.nMeas).sum

/-- The response of all sensors to a surface of mirror `k` (reconstruction.py:281-306): `phase[:] = 0; phase[dm.n_dm] = …`, no screens.  (An exception would leave `make_dm_iMat`; `C111_poke` shows that there is none.) -/
def Optics.poke (o : Optics) (k : ℕ) (a : Arr2) : List ℚ :=
  match runWfs o.layerAlts o.dmAlts none (some (layers o.scrn o.dmAlts.length (slot o.scrn k a).2)) o.wfss with
  | .ok m => m
  | .error _ => []

/-- `makeIMat` (reconstruction.py:248-265) with these sensors. -/
def Optics.calibrate (o : Optics) (totalActs : ℕ) (dms : List Persist.Dm) : Except PyErr (List Persist.Dm × List (List ℚ)) :=
  Persist.makeIMat ⟨totalActs, o.totalMeas, o.scrn⟩ o.poke 0 dms

/-- What the loop uses: the mirrors as `makeIMat` left them (`dmFrame` of the kept shapes), a control matrix (rows belong to measurements), delay and saving. -/
def Optics.sys (o : Optics) (dms : List Persist.Dm) (cmat : List (List ℚ)) (loopDelay : ℤ) (nIters : ℕ) (saveSlopes saveDmCommands : Bool) : Loop.Sys Stack where
  surface := fun k c =>
    match dms[k]? with
    | none => .error .indexError
    | some d =>
      match dmFrame o.scrn d.nElem 0 d.shapes (zero2 o.scrn) c with
      | .error e => .error e
      | .ok a => .ok (slot o.scrn k a)
  product := Control.tdot (dms.map fun d => d.shapes.length).sum cmat
  loopDelay := loopDelay
  nIters := nIters
  saveSlopes := saveSlopes
  saveDmCommands := saveDmCommands

/-- Atmosphere and sensors (simulation.py:539, 559-560): in frame `i` layer `l` shows `turb i l`.  (Corrections have no screens: `corr.sum.1` is zero for everything `slot` writes.) -/
def Optics.plant (o : Optics) (turb : ℕ → ℕ → ℕ → ℕ → ℚ) : Loop.Plant Unit Stack where
  sense := fun _ i corr =>
    match runWfs o.layerAlts o.dmAlts (some (layers o.scrn o.layerAlts.length (turb i - corr.sum.1))) (some (layers o.scrn o.dmAlts.length corr.sum.2)) o.wfss with
    | .error e => .error e
    | .ok m => .ok ((), m)

/-- The sensors in the loop with noise in their measurements: after everything else `slopes += normal(0, σ, …)` (gradient.py:162-170, shackhartmann.py:452-458), `err i m` being the random number added to measurement `m` in frame `i`
(in `iMat` frames, that is in `calibrate`, none is added). Which numbers are drawn is left open: the theorems hold for all of them. -/
def Optics.noisyPlant (o : Optics) (turb : ℕ → ℕ → ℕ → ℕ → ℚ) (err : ℕ → ℕ → ℚ) : Loop.Plant Unit Stack where
  sense := fun _ i corr =>
    match (o.plant turb).sense () i corr with
    | .error e => .error e
    | .ok (_, m) => .ok ((), m.mapIdx fun q x => x + err i q)

/-- What a science camera gets in a frame (`runSciCams`, simulation.py:523-526, 569; scienceinstrument.py:100-102): the state of its line of sight `g` after the screens `turb` and the corrections, `k` being the factor from nanometres to phase. -/
def Optics.look (o : Optics) (g : Geom) (k : ℚ) (turb : ℕ → ℕ → ℕ → ℚ) (corr : List Stack) : Except PyErr Los.State :=
  Los.frame ⟨g.up, g.nOut, o.layerAlts.map (metapupilCoords g), o.dmAlts.map (metapupilCoords g), k, g.scrn⟩ blank
    (some (layers o.scrn o.layerAlts.length (turb - corr.sum.1))) (some (layers o.scrn o.dmAlts.length corr.sum.2))

/-- What the sensors would measure without any mirror (`correction=None`) if the layers showed `t`. -/
def Optics.uncorrected (o : Optics) (t : ℕ → ℕ → ℕ → ℚ) : List ℚ :=
  match runWfs o.layerAlts o.dmAlts (some (layers o.scrn o.layerAlts.length t)) none o.wfss with
  | .ok m => m
  | .error _ => []

/-- The attributes of the mirrors that the control law reads, with their gains: all in closed loop. -/
def controls (dms : List Persist.Dm) (gains : List ℚ) : List Control.DmCtl := List.zipWith (fun d g => ⟨d.shapes.length, true, g⟩) dms gains

/-- The same with the configured mode of every mirror: `closed` and `gain` (confParse.py:1019-1020; read in simulation.py:497-509 and reconstruction.py:416-431). -/
def mixedControls (dms : List Persist.Dm) (modes : List (Bool × ℚ)) : List Control.DmCtl := List.zipWith (fun d m => ⟨d.shapes.length, m.1, m.2⟩) dms modes

/-- Weight along one axis in the slope of a sub-aperture of `s` pixels: `subapCoord / (xGrad_1**2).sum()` (gradient.py:60-71), `a` being the step of `telCoord`. -/
def gradWeight (s : ℕ) (a : ℚ) (k : ℕ) : ℚ :=
  let c : ℕ → ℚ := fun k => -(a * k - (∑ m ∈ Finset.range s, a * m) / s)
  c k / ∑ _i ∈ Finset.range s, ∑ j ∈ Finset.range s, c j ^ 2

/-- The gradient sensor as a linear sensor (gradient.py:113-126, 146-152): `subs` are the corners of the sub-apertures in the whole phase (`sim_pad` added), `s` their size; first the slopes along the second axis, then those along the first. -/
def gradWfs (g : Geom) (k : ℚ) (mask : ℕ → ℕ → ℚ) (subs : List (ℕ × ℕ)) (s : ℕ) (a : ℚ) : LinWfs where
  geom := g
  k := k
  nMeas := 2 * subs.length
  coef := fun q i j =>
    let c := subs.getD (if q < subs.length then q else q - subs.length) (0, 0)
    if c.1 ≤ i ∧ i < c.1 + s ∧ c.2 ≤ j ∧ j < c.2 + s then mask i j * (if q < subs.length then gradWeight s a (j - c.2) else gradWeight s a (i - c.1)) else 0

end Soapy.Whole
