/-
What a simulation must be like, and what it must do, for C90 and C91.
-/
import Verif.Model.Sys

namespace Soapy.Sys

open Soapy.Prog

/-- Mirrors, reconstructors and cameras that are not dead code: see C90 for the other reconstructors. -/
def Known (cfg : Cfg) : Prop :=
  cfg.mirror ∈ [Cls.CustomShapes, .KarhunenLoeve, .Zernike, .Piezo, .GaussStack, .TT, .FastPiezo] ∧ cfg.recon ∈ [Cls.MVM, .MVM_SeparateDMs, .LearnAndApply, .LearnAndApplyLTAO] ∧ cfg.camera ∈ [Cls.PSFCamera, .singleModeFibre]

/-- Settings that work together. -/
structure Supported (cfg : Cfg) : Prop where
  /-- the sensors count their measurements -/
  counts : cfg.env .senN = true
  /-- no `wfsMP` -/
  oneProcess : cfg.env .mp = false
  /-- no `loadModule` for a sensor -/
  ownSensors : cfg.env .loadWfs = false
  /-- a Karhunen-Loève mirror has at most 1000 modes -/
  fewModes : cfg.env .dms = true → cfg.mirror = .KarhunenLoeve → cfg.env .many = false
  /-- a piezo mirror's grid is not as large as the screen -/
  unequal : cfg.env .dms = true → cfg.mirror = .Piezo → cfg.env .equalSize = false
  /-- a mirror is attached to a sensor if the reconstructor treats mirrors separately -/
  attached : cfg.recon = .MVM_SeparateDMs ∨ cfg.recon = .LearnAndApplyLTAO → cfg.env .dms = true → cfg.env .attached = true
  /-- learn-and-apply needs sensors that count their sub-apertures -/
  subaps : cfg.recon = .LearnAndApply ∨ cfg.recon = .LearnAndApplyLTAO → cfg.env .senSub = true
  /-- what is learnt can be saved only under a name -/
  learnt : cfg.recon = .LearnAndApply ∨ cfg.recon = .LearnAndApplyLTAO → cfg.env .saveLearn = true → cfg.env .named = true
  /-- no `saveInstScieField` -/
  noField : cfg.env .sci = true → cfg.env .instField = false
  /-- no `saveSciRes` with physical propagation -/
  noResidual : cfg.env .sci = true → cfg.env .sciRes = true → cfg.env .phys = false
  /-- wavefront errors and Strehl ratios are saved only if there are cameras -/
  wfe : cfg.env .named = true → cfg.env .sci = false → cfg.env .saveWfe = false
  strehl : cfg.env .named = true → cfg.env .sci = false → cfg.env .saveStrehl = false
  /-- the image of a laser going up is saved only if the sensor makes one -/
  laser : cfg.env .saveLgs = true → cfg.env .uplink = true → cfg.env .senLgs = true

/-- The simulation can run, and however it runs it raises nothing. -/
def EndsWell (cfg : Cfg) (forceNew : Bool) (us : List Use) : Prop := (∃ o, Story cfg forceNew us (.ok o)) ∧ ∀ res, Story cfg forceNew us res → ∃ o, res = .ok o

end Soapy.Sys
