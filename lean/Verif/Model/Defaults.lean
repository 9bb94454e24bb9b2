/-
Model of the parameters of a configuration file and of their documentation: the lists of the classes in `confParse.py` and the tables in their docstrings, from which the manual is made.

Simplification: what `calcParams` does afterwards is left out (C35, C94).  A table row without a default (`dmShapesFilename`) is left out.  "Data saving (all default to False)" (confParse.py:498) stands for a default `False`
of each parameter of that table.
-/
import Verif.Model.Load

namespace Soapy.Defaults

open Soapy.Load

/-- A default value: `None`, a truth value, a number, a string, a pair of numbers. -/
inductive D where
  | none
  | bool (b : Bool)
  | num (q : ℚ)
  | str (s : String)
  | pair (a b : ℚ)
  deriving DecidableEq

/-- `requiredParams` of the classes (confParse.py:524-527, 622-628, 863-864, 922-922, 773-776, 1013-1014, 1074-1075, 1147-1150). -/
def codeRequired : Cls → List String
  | .sim => ["pupilSize", "nIters", "loopTime"]
  | .atmos => ["scrnNo", "scrnHeights", "scrnStrengths", "r0", "windDirs", "windSpeeds"]
  | .tel => ["telDiam"]
  | .lgs => []
  | .wfs => ["GSPosition", "wavelength", "nxSubaps"]
  | .dm => ["type"]
  | .recon => []
  | .sci => ["position", "wavelength", "pxls"]

/-- `optionalParams` of the classes, in order (confParse.py:529-555, 630-639, 866-868, 924-937, 777-812, 1016-1031, 1076-1082, 1151-1162). -/
def codeOptional : Cls → List (String × D)
  | .sim => [("nGS", .num 0), ("nDM", .num 0), ("nSci", .num 0), ("gain", .num (3 / 5)), ("reconstructor", .str "MVM"), ("simName", .none), ("saveSlopes", .bool false), ("saveDmCommands", .bool false), ("saveLgsPsf", .bool false), ("saveLearn", .bool false), ("saveStrehl", .bool false), ("saveWfsFrames", .bool false), ("saveSciPsf", .bool false), ("saveInstPsf", .bool false), ("saveInstScieField", .bool false), ("saveWfe", .bool false), ("saveSciRes", .bool false), ("saveCalib", .bool false), ("wfsMP", .bool false), ("verbosity", .num 2), ("logfile", .none), ("learnIters", .num 0), ("learnAtmos", .str "random"), ("simOversize", .num (51 / 50)), ("loopDelay", .num 0), ("threads", .num 1)]
  | .atmos => [("scrnNames", .none), ("subHarmonics", .bool false), ("L0", .none), ("randomScrns", .bool false), ("tau0", .none), ("infinite", .bool false), ("wholeScrnSize", .none), ("randomSeed", .none)]
  | .tel => [("obsDiam", .num 0), ("mask", .str "circle")]
  | .lgs => [("uplink", .bool false), ("pupilDiam", .num (3 / 10)), ("obsDiam", .num 0), ("wavelength", .num (3 / 5000000)), ("propagationMode", .str "Physical"), ("height", .num 90000), ("fftwFlag", .str "FFTW_PATIENT"), ("fftwThreads", .num 0), ("elongationDepth", .num 0), ("elongationLayers", .num 10), ("launchPosition", .pair 0 0), ("naProfile", .none), ("precompensated", .bool false)]
  | .wfs => [("propagationMode", .str "Geometric"), ("fftwThreads", .num 1), ("fftwFlag", .str "FFTW_PATIENT"), ("angleEquivNoise", .num 0), ("subapFieldStop", .bool false), ("removeTT", .str "False"), ("angleEquivNoise", .num 0), ("fftOversamp", .num 3), ("GSHeight", .num 0), ("subapThreshold", .num (1 / 2)), ("lgs", .none), ("centThreshold", .num 0), ("centMethod", .str "centre_of_gravity"), ("type", .str "ShackHartmann"), ("exposureTime", .none), ("referenceImage", .none), ("throughput", .num 1), ("eReadNoise", .num 0), ("photonNoise", .bool false), ("GSMag", .num 0), ("wvlBandWidth", .num 100), ("extendedObject", .none), ("pxlsPerSubap", .num 10), ("subapFOV", .num 5), ("correlationFFTPad", .none), ("nx_guard_pixels", .num 0), ("loadModule", .none), ("photometric_zp", .num 2000000000), ("nb_modulation", .num 4), ("amplitude_modulation", .num (1 / 10)), ("FOV", .num (1 / 2)), ("detector_size", .none), ("detector", .str "CCD"), ("nb_of_photon", .none), ("pupil_separation", .num 10)]
  | .dm => [("nxActuators", .none), ("svdConditioning", .num 0), ("gain", .num (3 / 5)), ("closed", .bool true), ("iMatValue", .num 10), ("wfs", .none), ("rotation", .num 0), ("interpOrder", .num 2), ("gaussWidth", .num (1 / 2)), ("altitude", .num 0), ("diameter", .none), ("gauss_width", .num (7 / 10)), ("dmShapesFilename", .none), ("loadModule", .none)]
  | .recon => [("type", .str "MVM"), ("svdConditioning", .num 0), ("gain", .num (3 / 5)), ("imat_noise", .bool true), ("loadModule", .none)]
  | .sci => [("pxlScale", .none), ("FOV", .none), ("type", .str "PSF"), ("fftOversamp", .num 2), ("fftwFlag", .str "FFTW_MEASURE"), ("fftwThreads", .num 1), ("instStrehlWithTT", .bool false), ("height", .num 0), ("propagationMode", .str "Geometric"), ("loadModule", .none), ("propagationDir", .str "down")]

/-- The parameters documented as required (confParse.py:450-523, 574-620, 840-860, 877-920, 661-771, 958-1011, 1046-1073, 1091-1144). -/
def docRequired : Cls → List String
  | .sim => ["pupilSize", "nIters", "loopTime"]
  | .atmos => ["scrnNo", "scrnHeights", "scrnStrengths", "windDirs", "windSpeeds", "r0"]
  | .tel => ["telDiam"]
  | .lgs => []
  | .wfs => ["GSPosition", "wavelength", "nxSubaps"]
  | .dm => ["type", "nxActuators", "gain", "svdConditioning"]
  | .recon => []
  | .sci => ["position", "FOV", "wavelength", "pxls"]

/-- The documented defaults, in the same places. -/
def docOptional : Cls → List (String × D)
  | .sim => [("nGS", .num 0), ("nDM", .num 0), ("nSci", .num 0), ("reconstructor", .str "MVM"), ("simName", .none), ("wfsMP", .bool false), ("verbosity", .num 2), ("logfile", .none), ("learnIters", .num 0), ("learnAtmos", .str "random"), ("simOversize", .num (6 / 5)), ("loopDelay", .num 0), ("threads", .num 1), ("saveSlopes", .bool false), ("saveDmCommands", .bool false), ("saveWfsFrames", .bool false), ("saveStrehl", .bool false), ("saveWfe", .bool false), ("saveSciPsf", .bool false), ("saveInstPsf", .bool false), ("saveInstScieField", .bool false), ("saveSciRes", .bool false), ("saveCalib", .bool false)]
  | .atmos => [("scrnNames", .none), ("subHarmonics", .bool false), ("L0", .none), ("randomScrns", .bool false), ("infinite", .bool false), ("tau0", .none), ("wholeScrnSize", .none), ("randomSeed", .none)]
  | .tel => [("obsDiam", .num 0), ("mask", .str "circle")]
  | .lgs => [("uplink", .bool false), ("pupilDiam", .num (3 / 10)), ("obsDiam", .num 0), ("wavelength", .num (3 / 5000000)), ("propagationMode", .str "Phsyical"), ("height", .num 90000), ("elongationDepth", .num 0), ("elongationLayers", .num 10), ("launchPosition", .pair 0 0), ("fftwThreads", .num 1), ("fftwFlag", .str "FFTW_PATIENT"), ("naProfile", .none), ("precompensated", .bool false)]
  | .wfs => [("type", .str "ShackHartmann"), ("GSMag", .num 0), ("photonNoise", .bool false), ("eReadNoise", .num 0), ("throughput", .num 1), ("propagationMode", .str "Geometric"), ("subapFieldStop", .bool false), ("removeTT", .bool false), ("fftOversamp", .num 3), ("GSHeight", .num 0), ("subapThreshold", .num (1 / 2)), ("lgs", .bool false), ("centMethod", .str "centre_of_gravity"), ("referenceImage", .none), ("angleEquivNoise", .num 0), ("centThreshold", .num (1 / 10)), ("exposureTime", .none), ("wvlBandWidth", .num 100), ("extendedObject", .none), ("fftwThreads", .num 1), ("fftwFlag", .str "FFTW_PATIENT"), ("pxlsPerSubap", .num 10), ("subapFOV", .num 5), ("correlationFFTPad", .none), ("nx_guard_pixels", .num 0), ("loadModule", .none), ("photometric_zp", .num 2000000000), ("nb_modulation", .num 4), ("amplitude_modulation", .num (1 / 10)), ("FOV", .num (1 / 2)), ("detector_size", .none), ("detector", .str "CCD"), ("nb_of_photon", .num 36000), ("pupil_separation", .num 10)]
  | .dm => [("closed", .bool true), ("iMatValue", .num 10), ("wfs", .num 0), ("rotation", .num 0), ("interpOrder", .num 2), ("gaussWidth", .num (1 / 2)), ("altitude", .num 0), ("diameter", .none), ("gauss_width", .num 1), ("loadModule", .none)]
  | .recon => [("type", .str "MVM"), ("svdConditioning", .num 0), ("gain", .num (3 / 5)), ("imat_noise", .bool true), ("loadModule", .none)]
  | .sci => [("pxlScale", .none), ("type", .str "PSF"), ("fftOversamp", .num 2), ("fftwThreads", .num 1), ("fftwFlag", .str "FFTW_MEASURE"), ("height", .num 0), ("propagationMode", .str "Geometric"), ("propagationDir", .str "down"), ("instStrehlWithTT", .bool false), ("loadModule", .none)]

/-- `loadParams` (confParse.py:392-408) of a group without components, looked at one parameter: `file` are the parameters of the group, of any type; the attribute is set for each entry of the lists in turn, so the last
entry with a name counts.  `none` for a name that is no parameter. -/
def loaded {α : Type} (dflt : D → α) (c : Cls) (file : String → Option α) (name : String) : Option (Except PyErr α) :=
  match ((codeOptional c).reverse.lookup name) with
  | some d => some (.ok ((file name).getD (dflt d)))
  | none => if name ∈ codeRequired c then some (match file name with | some v => .ok v | none => .error .configurationError) else none

/-- `len(config)` (confParse.py:433-434). -/
def length (c : Cls) : ℕ := (codeRequired c).length + (codeOptional c).length

/-- The names that `dict(config)` has (confParse.py:418-431): a name that comes twice is one key. -/
def keys (c : Cls) : List String := (codeRequired c ++ (codeOptional c).map Prod.fst).dedup

end Soapy.Defaults
