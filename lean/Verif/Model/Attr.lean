/-
Which attributes, methods and module-level names a sensor object needs and has: the sensor classes of `wfs/` as programs that only assign, read, branch, loop and call.

Simplifications: values are left out; local variables and calls into other packages are left out; `self.config.…` always exists (C36 is about that).  `self.a[:] = …` and `self.a += …` read `a`.
A condition written with `and` is a nest of branches.
-/
import Mathlib.Logic.Function.Basic

namespace Soapy.Attr

/-! ### The language -/

/-- Classes of sensors (wfs/__init__.py:8-13; wfs.py:103). -/
inductive Cls
  | WFS | ShackHartmann | Gradient | Pyramid | ExtendedSH | ShackHartmannLegacy | Zernike
  deriving DecidableEq

/-- Methods. -/
inductive Meth
  | initLos | calcInitParams | initFFTs | initLGS | allocDataArrays | calcTiltCorrect | getStatic | calcElongPhaseAddition | calcElongPos | calcFocalPlane | zeroData | makeElongationFrame
  | integrateDetectorPlane | readDetectorPlane | calculateSlopes | findActiveSubaps | setMask | frame | zeroPhaseData | applyLgsUplink | addPhotonNoise | addReadNoise | calcPyramidMask
  | calcCentroidMask | calcDetectorMask | calcTipTiltModulationsPoints | calcModulationMatrix | calcFlatSlopes | makeCorrelationImgs | init | simple_frame | setReference | setObject
  | getReference | getObject
  deriving DecidableEq

/-- Attributes of a sensor object.  `los_single` stands for what only a `LineOfSight` has (`phase`, `EField`, `phs2Rad`, `performCorrection`, `calcInitParams`, `allocDataArrays`, `telescope_diameter`; lineofsight.py:46-391),
`los_elong` for what only an `ElongLineOfSight` has (`[i]`; lineofsight.py:490-525); `frame`, `zeroData` and `scrns` are in both.  `lgs_obj` stands for: `self.lgs` is an object and not `None`. -/
inductive Att
  | soapy_config | config | wfsConfig | lgsConfig | pupil_size | sim_size | phase_scale | sim_pad | screen_size | telescope_diameter | wavelength | threads | mask | iMat | los | los_single
  | lgsLaunchPos | elong | elongLayers | elongHeights | elongZs | elongRadii | elongPos | elongPhaseAdditions | los_elong | uncorrectedPhase | lgs | lgs_obj | slopes | n_measurements
  | staticData | wfsDetectorPlane | nx_subaps | subap_fov | nx_subap_pixels | fft_oversamp | nx_guard_pixels | subap_threshold | pixel_scale | subap_fov_rad | subap_diam | nm_to_rad
  | nx_subap_pupil | nx_subap_interp | SUBAP_OVERSIZE | nx_detector_pixels | nx_subap_pixels_oversize | nx_interp_efield | referenceImage | n_subaps | pupil_subap_coords
  | detector_subap_coords | valid_subap_coords | detector_cent_coords | subap_fill_factor | interp_subap_coords | scaledMask | subapFillFactor | subapFFTPadding | fft_input_data
  | fft_output_data | FFT | ifft_input_data | ifft_output_data | iFFT | lgs_ifft_input_data | lgs_ifft_output_data | lgs_iFFT | interp_phase | interp_efield | subap_interp_efield
  | binnedFPSubapArrays | subap_focus_intensity | temp_subap_intensity | detector | centSubapArrays | tilt_fix | tilt_fix_efield | temp_subap_focus | subapSpacing | subapDiam | xGrad_1
  | yGrad_1 | xGrad | yGrad | subapCoords | activeSubaps | subapArrays | pupilPhase | pupil_separation | nb_modulation | amplitude_modulation | size_array | bin | detector_size | count | GSMag
  | FOV | SlopeSize | focal_plane | modulation_phase_matrix | centroidMask | pyramid_mask_phs_screen | detector_mask | Xslopes | Yslopes | flat_slopes | apex | pyramid_mask | tip_mod
  | tilt_mod | priv_referenceImage | detectorPxls | detectorSubapCoords | iReferenceImage | priv_extendedObject | corrFFT | corrIFFT | extendedObject | FPSubapArrays | objectConv
  | corrSubapArrays | subapFOVrad | PPSpacing | subapFOVSpacing | scaledEFieldSize | tiltFix | cropEField | FPSubapsArrays | iFFTLGSPSF | iFFTFPSubapsArray | n_zerns | zernike_array
  | pupil_phase | detector_data
  deriving DecidableEq

/-- Names of modules read inside the methods that matter here. -/
inductive Glob
  | numpy | base
  deriving DecidableEq

/-- Keywords of calls. -/
inductive Kw
  | phaseSize | detector | FP | intensity | los | maskd | flat | num_of_mod | ampl | iMatFrame | read | phase_correction
  deriving DecidableEq

/-- Conditions that stay the same between two places of the code: `lgs` (`config.lgs` is set), `uplink`, `elong` (`GSHeight != 0 and elongationDepth != 0`), `precomp` (`precompensated`); and arguments of a method: `read`, `corr` (a correction is given), `imat`, `maskd`, `flat`. -/
inductive Cond
  | lgs | uplink | elong | precomp | read | corr | imat | maskd | flat
  deriving DecidableEq

/-- A statement, reduced to what decides whether names exist. -/
inductive Instr
  /-- `self.a = …` -/
  | asg (a : Att)
  /-- `self.a` is read -/
  | rd (a : Att)
  /-- the object no longer has `a` -/
  | del (a : Att)
  /-- a module-level name is read -/
  | glob (g : Glob)
  /-- `self.m(kw…)`; the pairs are the values of arguments that are conditions -/
  | call (m : Meth) (kw : List Kw) (args : List (Cond × Bool))
  /-- `super(c, self).m(kw…)` -/
  | sup (c : Cls) (m : Meth) (kw : List Kw)
  /-- branch on a condition -/
  | ifc (c : Cond) (t e : List Instr)
  /-- branch on anything else -/
  | ifa (t e : List Instr)
  /-- any number of rounds -/
  | loop (b : List Instr)

open Instr

/-- A method: its parameters, the defaults of the parameters that are conditions, its body. -/
structure Method where
  params : List Kw
  dflt : List (Cond × Bool)
  body : List Instr

/-- Several reads. -/
def G (l : List Att) : List Instr := l.map rd

/-- Several assignments. -/
def S (l : List Att) : List Instr := l.map asg

/-- `self.m()` -/
def run (m : Meth) : List Instr := [call m [] []]

/-! ### The base class (wfs.py) -/

/-- `WFS.__init__` (wfs.py:116-160). -/
def wfsInit : List Instr :=
  S [.soapy_config] ++ G [.soapy_config] ++ S [.config, .wfsConfig] ++ G [.config] ++ S [.lgsConfig] ++
  S [.pupil_size, .sim_size, .phase_scale, .sim_pad, .screen_size, .telescope_diameter, .wavelength, .threads] ++
  [ifa (S [.mask]) (G [.pupil_size, .sim_size] ++ S [.mask])] ++
  S [.iMat] ++ run .initLos ++ run .calcInitParams ++ run .initFFTs ++ G [.lgsConfig] ++ [ifc .lgs (run .initLGS) []] ++
  run .allocDataArrays ++ run .calcTiltCorrect ++ run .getStatic

/-- `WFS.setMask` (wfs.py:168-182). -/
def wfsSetMask : List Instr := [ifa (S [.mask]) (G [.pupil_size, .sim_size] ++ S [.mask])]

/-- `self.los = lineofsight.LineOfSight(…)` (wfs.py:198). -/
def newLos : List Instr := [asg .los, asg .los_single, del .los_elong]

/-- `WFS.initLos`, `ShackHartmann.initLos` (wfs.py:194-200; shackhartmann.py:102-108). -/
def wfsInitLos : List Instr := G [.config, .soapy_config] ++ newLos

/-- `WFS.calcInitParams` (wfs.py:185-186). -/
def wfsCalcInitParams : List Instr := G [.los, .los_single]

/-- `WFS.initLGS` (wfs.py:203-267). -/
def wfsInitLGS : List Instr :=
  G [.lgsConfig] ++ [ifc .uplink (G [.config, .soapy_config] ++ [asg .lgs, asg .lgs_obj]) [asg .lgs, del .lgs_obj]] ++
  S [.lgsLaunchPos, .elong, .elongLayers] ++ G [.config] ++
  [ifc .lgs (
    S [.lgsLaunchPos] ++
    [ifc .elong (
      S [.elong, .elongLayers] ++ G [.elong, .elongLayers] ++ S [.elongHeights] ++ G [.pupil_size] ++ S [.elongZs] ++ S [.elongRadii, .elongPos] ++
      G [.elongLayers, .sim_size] ++ S [.elongPhaseAdditions] ++
      [loop (run .calcElongPhaseAddition ++ G [.elongPhaseAdditions] ++ run .calcElongPos ++ G [.elongPos])] ++
      G [.elongHeights, .elongPos, .config, .soapy_config] ++ [asg .los, asg .los_elong, del .los_single]) []]) []]

/-- `WFS.calcElongPhaseAddition` (wfs.py:275-332). -/
def wfsCalcElongPhaseAddition : List Instr :=
  G [.elongHeights, .config, .lgsConfig, .lgsLaunchPos, .soapy_config, .telescope_diameter, .wfsConfig, .pupil_size, .elongZs, .sim_pad]

/-- `WFS.calcElongPos` (wfs.py:334-361). -/
def wfsCalcElongPos : List Instr := G [.elongHeights, .config, .lgsLaunchPos, .telescope_diameter]

/-- `WFS.makeElongationFrame` (wfs.py:367-393), with `elongationLayers` at least 1. -/
def wfsMakeElongationFrame : List Instr :=
  G [.los, .los_elong] ++ S [.uncorrectedPhase] ++ G [.elongLayers] ++
  (let layer := G [.uncorrectedPhase, .los, .los_elong, .elongPhaseAdditions] ++ G [.lgsConfig] ++ [call .calcFocalPlane [.intensity, .los] []]
   layer ++ [loop layer])

/-- `WFS.frame` (wfs.py:395-471). -/
def wfsFrame : List Instr :=
  let single := G [.los, .los_single] ++ S [.uncorrectedPhase] ++
    [ifc .corr (G [.los, .los_single] ++ [ifc .lgs [ifc .precomp (G [.lgs, .lgs_obj]) []] []]) []] ++ run .calcFocalPlane
  [ifc .imat (S [.iMat] ++ G [.config]) []] ++
  [call .zeroData [.detector, .FP] []] ++ G [.los] ++ G [.config] ++
  [ifc .lgs (G [.elong] ++ [ifc .elong (run .makeElongationFrame) single]) single] ++
  run .integrateDetectorPlane ++
  [ifc .read (run .readDetectorPlane ++ run .calculateSlopes ++ [call .zeroData [.detector] []]) []] ++
  [ifc .imat (S [.iMat] ++ G [.config]) []] ++
  G [.slopes] ++ [ifc .read (G [.slopes]) (G [.n_measurements])]

/-- `WFS.simple_frame` (wfs.py:473-518). -/
def wfsSimpleFrame : List Instr :=
  run .zeroData ++ [ifc .imat (S [.iMat] ++ G [.config]) []] ++ G [.los, .los_single] ++
  run .calcFocalPlane ++ run .integrateDetectorPlane ++ run .readDetectorPlane ++ run .calculateSlopes ++
  [ifc .imat (S [.iMat] ++ G [.config]) []] ++ G [.slopes]

/-- Defaults of `frame`. -/
def frameDflt : List (Cond × Bool) := [(.corr, false), (.read, true), (.imat, false)]

/-- The methods of the base class. -/
def wfsMethods : Meth → Option Method
  | .init => some ⟨[], [], wfsInit⟩
  | .setMask => some ⟨[], [], wfsSetMask⟩
  | .calcInitParams => some ⟨[.phaseSize], [], wfsCalcInitParams⟩
  | .initFFTs => some ⟨[], [], []⟩
  | .allocDataArrays => some ⟨[], [], []⟩
  | .initLos => some ⟨[], [], wfsInitLos⟩
  | .initLGS => some ⟨[], [], wfsInitLGS⟩
  | .calcTiltCorrect => some ⟨[], [], []⟩
  | .getStatic => some ⟨[], [], S [.staticData]⟩
  | .calcElongPhaseAddition => some ⟨[], [], wfsCalcElongPhaseAddition⟩
  | .calcElongPos => some ⟨[], [], wfsCalcElongPos⟩
  | .zeroPhaseData => some ⟨[], [], G [.los]⟩
  | .makeElongationFrame => some ⟨[], [], wfsMakeElongationFrame⟩
  | .frame => some ⟨[.phase_correction, .read, .iMatFrame], frameDflt, wfsFrame⟩
  | .simple_frame => some ⟨[.iMatFrame], [(.imat, false)], wfsSimpleFrame⟩
  | .addPhotonNoise => some ⟨[], [], G [.wfsDetectorPlane] ++ S [.wfsDetectorPlane]⟩
  | .addReadNoise => some ⟨[], [], G [.wfsDetectorPlane, .config]⟩
  | .calcFocalPlane => some ⟨[.intensity, .los], [], []⟩
  | .integrateDetectorPlane => some ⟨[], [], []⟩
  | .readDetectorPlane => some ⟨[], [], []⟩
  | .calculateSlopes => some ⟨[], [], G [.los, .los_single] ++ S [.slopes]⟩
  | .zeroData => some ⟨[.detector, .FP], [], []⟩
  | _ => none

/-! ### Shack-Hartmann (shackhartmann.py) -/

/-- `ShackHartmann.calcInitParams` (shackhartmann.py:42-99). -/
def shCalcInitParams : List Instr :=
  [sup .ShackHartmann .calcInitParams []] ++ G [.config] ++ S [.nx_subaps, .subap_fov, .nx_subap_pixels, .fft_oversamp, .nx_guard_pixels, .subap_threshold] ++
  G [.subap_fov, .nx_subap_pixels] ++ S [.pixel_scale, .subap_fov_rad] ++ G [.telescope_diameter, .nx_subaps] ++ S [.subap_diam] ++ G [.wavelength] ++ S [.nm_to_rad] ++
  G [.pupil_size, .nx_subaps] ++ S [.nx_subap_pupil] ++ G [.subap_diam, .subap_fov_rad, .config] ++ S [.nx_subap_interp] ++
  [ifa (S [.SUBAP_OVERSIZE]) (S [.SUBAP_OVERSIZE])] ++ G [.nx_subaps, .nx_subap_pixels, .nx_guard_pixels] ++ S [.nx_detector_pixels] ++
  G [.nx_subap_interp, .SUBAP_OVERSIZE] ++ S [.nx_subap_interp] ++ G [.SUBAP_OVERSIZE, .nx_subap_pixels] ++ S [.nx_subap_pixels_oversize] ++
  G [.nx_subaps, .nx_subap_interp, .sim_size, .pupil_size] ++ S [.nx_interp_efield] ++
  [ifa (G [.sim_size, .nx_interp_efield, .phase_scale, .los, .los_single]) []] ++
  run .findActiveSubaps ++ G [.config] ++ S [.referenceImage] ++ G [.n_subaps] ++ S [.n_measurements]

/-- `ShackHartmann.findActiveSubaps` (shackhartmann.py:111-136). -/
def shFindActiveSubaps : List Instr :=
  G [.mask, .sim_pad, .nx_subaps, .subap_threshold, .nx_subap_pixels, .SUBAP_OVERSIZE, .nx_guard_pixels] ++
  S [.pupil_subap_coords, .detector_subap_coords, .valid_subap_coords, .detector_cent_coords, .subap_fill_factor] ++
  G [.pupil_subap_coords, .sim_pad, .nx_subap_interp, .nx_subap_pupil] ++ S [.interp_subap_coords] ++ G [.pupil_subap_coords] ++ S [.n_subaps] ++ G [.n_subaps] ++ S [.n_measurements] ++
  G [.mask] ++ run .setMask

/-- `ShackHartmann.setMask` (shackhartmann.py:138-150). -/
def shSetMask : List Instr :=
  [sup .ShackHartmann .setMask []] ++ G [.mask, .nx_interp_efield] ++ S [.scaledMask] ++ G [.sim_pad, .mask, .pupil_subap_coords, .pupil_size, .nx_subaps] ++ S [.subapFillFactor]

/-- `ShackHartmann.initFFTs` (shackhartmann.py:153-213). -/
def shInitFFTs : List Instr :=
  G [.nx_subap_pixels_oversize, .config] ++ S [.subapFFTPadding] ++ G [.subapFFTPadding, .nx_subap_interp] ++
  [ifa [loop (G [.subapFFTPadding, .nx_subap_interp, .config, .nx_subap_pixels_oversize] ++ S [.subapFFTPadding])] []] ++
  G [.n_subaps, .subapFFTPadding] ++ S [.fft_input_data] ++ G [.n_subaps, .subapFFTPadding] ++ S [.fft_output_data] ++ G [.fft_input_data, .fft_output_data, .threads, .config] ++ S [.FFT] ++
  G [.lgsConfig] ++
  [ifc .lgs [ifc .uplink (
    G [.n_subaps, .subapFFTPadding] ++ S [.ifft_input_data, .ifft_output_data] ++ G [.ifft_input_data, .ifft_output_data, .threads, .config] ++ S [.iFFT] ++
    G [.subapFFTPadding] ++ S [.lgs_ifft_input_data, .lgs_ifft_output_data] ++ G [.lgs_ifft_input_data, .lgs_ifft_output_data, .threads, .config] ++ S [.lgs_iFFT]) []] []]

/-- `ShackHartmann.initLGS` (shackhartmann.py:215-224). -/
def shInitLGS : List Instr :=
  [sup .ShackHartmann .initLGS []] ++ G [.lgsConfig] ++ [ifc .uplink (G [.config, .soapy_config, .subapFFTPadding] ++ [asg .lgs, asg .lgs_obj]) []]

/-- `ShackHartmann.allocDataArrays` (shackhartmann.py:226-262). -/
def shAllocDataArrays : List Instr :=
  G [.nx_interp_efield] ++ S [.interp_phase, .interp_efield] ++ G [.n_subaps, .nx_subap_interp] ++ S [.subap_interp_efield] ++ G [.n_subaps, .nx_subap_pixels_oversize] ++ S [.binnedFPSubapArrays] ++
  G [.n_subaps, .subapFFTPadding] ++ S [.subap_focus_intensity] ++ G [.subap_focus_intensity] ++ S [.temp_subap_intensity] ++ G [.nx_detector_pixels] ++ S [.detector] ++
  G [.n_subaps, .config] ++ S [.centSubapArrays] ++ G [.n_subaps] ++ S [.slopes] ++ G [.detector] ++ S [.wfsDetectorPlane]

/-- `ShackHartmann.calcTiltCorrect` (shackhartmann.py:264-287). -/
def shCalcTiltCorrect : List Instr :=
  G [.config] ++ [ifa (G [.SUBAP_OVERSIZE, .subap_fov_rad, .subapFFTPadding, .subap_diam, .nx_subap_interp] ++ S [.tilt_fix]) (G [.nx_subap_interp] ++ S [.tilt_fix])] ++ G [.tilt_fix] ++ S [.tilt_fix_efield]

/-- `ShackHartmann.getStatic` (shackhartmann.py:289-299). -/
def shGetStatic : List Instr :=
  S [.staticData] ++ G [.soapy_config, .screen_size] ++ [call .frame [.iMatFrame] [(.imat, true)]] ++ G [.n_subaps] ++ S [.staticData]

/-- `ShackHartmann.zeroData` (shackhartmann.py:303-318). -/
def shZeroData : List Instr := run .zeroPhaseData ++ [ifa (G [.subap_focus_intensity]) []] ++ [ifa (G [.detector]) []]

/-- `ShackHartmann.calcFocalPlane` (shackhartmann.py:320-351); without the argument `los` the sensor's own line of sight is used. -/
def shCalcFocalPlane : List Instr :=
  G [.los, .config] ++ [ifa (G [.nx_interp_efield, .interp_efield]) (G [.interp_efield])] ++
  G [.fft_input_data, .interp_efield, .interp_subap_coords, .nx_subap_interp, .fft_input_data, .scaledMask, .tilt_fix_efield, .FFT, .fft_output_data] ++ S [.temp_subap_focus] ++
  G [.temp_subap_focus, .temp_subap_intensity] ++ [ifa (G [.temp_subap_intensity]) []] ++ G [.subap_focus_intensity, .temp_subap_intensity] ++ S [.subap_focus_intensity]

/-- `ShackHartmann.integrateDetectorPlane` (shackhartmann.py:354-382). -/
def shIntegrateDetectorPlane : List Instr :=
  G [.config] ++ [ifc .lgs (G [.lgs] ++ [ifc .uplink (G [.lgsConfig, .iMat] ++ [ifa (run .applyLgsUplink) []]) []]) []] ++
  G [.binnedFPSubapArrays, .subap_focus_intensity, .config, .subapFillFactor] ++ S [.binnedFPSubapArrays] ++ G [.binnedFPSubapArrays, .detector, .detector_subap_coords, .valid_subap_coords]

/-- `ShackHartmann.readDetectorPlane` (shackhartmann.py:385-397). -/
def shReadDetectorPlane : List Instr :=
  G [.detector, .config, .mask, .phase_scale] ++ [ifa (run .addPhotonNoise) []] ++ [ifa (run .addReadNoise) []]

/-- `ShackHartmann.applyLgsUplink` (shackhartmann.py:400-420). -/
def shApplyLgsUplink : List Instr :=
  G [.lgs, .lgs_obj, .los, .lgs_ifft_input_data, .lgs_iFFT, .ifft_input_data, .subap_focus_intensity, .iFFT, .ifft_output_data, .lgs_ifft_output_data, .fft_input_data, .FFT, .fft_output_data]

/-- `ShackHartmann.calculateSlopes` (shackhartmann.py:422-459). -/
def shCalculateSlopes : List Instr :=
  G [.detector, .detector_cent_coords, .nx_subap_pixels, .centSubapArrays, .config, .referenceImage, .staticData, .slopes, .n_subaps] ++ [ifa (G [.slopes, .n_subaps]) []] ++
  [ifa (G [.iMat] ++ [ifa (G [.config, .slopes, .n_subaps]) []]) []]

/-- The methods of `ShackHartmann`. -/
def shMethods : Meth → Option Method
  | .calcInitParams => some ⟨[], [], shCalcInitParams⟩
  | .initLos => some ⟨[], [], wfsInitLos⟩
  | .findActiveSubaps => some ⟨[], [], shFindActiveSubaps⟩
  | .setMask => some ⟨[], [], shSetMask⟩
  | .initFFTs => some ⟨[], [], shInitFFTs⟩
  | .initLGS => some ⟨[], [], shInitLGS⟩
  | .allocDataArrays => some ⟨[], [], shAllocDataArrays⟩
  | .calcTiltCorrect => some ⟨[], [], shCalcTiltCorrect⟩
  | .getStatic => some ⟨[], [], shGetStatic⟩
  | .zeroData => some ⟨[.detector, .FP], [], shZeroData⟩
  | .calcFocalPlane => some ⟨[.intensity, .los], [], shCalcFocalPlane⟩
  | .integrateDetectorPlane => some ⟨[], [], shIntegrateDetectorPlane⟩
  | .readDetectorPlane => some ⟨[], [], shReadDetectorPlane⟩
  | .applyLgsUplink => some ⟨[], [], shApplyLgsUplink⟩
  | .calculateSlopes => some ⟨[], [], shCalculateSlopes⟩
  | .addPhotonNoise => some ⟨[], [], G [.detector]⟩
  | .addReadNoise => some ⟨[], [], G [.detector, .config, .wfsDetectorPlane]⟩
  | _ => none

/-! ### Gradient (gradient.py) -/

/-- The methods of `Gradient` (gradient.py:46-171). -/
def gradMethods : Meth → Option Method
  | .calcInitParams => some ⟨[], [],
      [sup .Gradient .calcInitParams []] ++ G [.pupil_size, .wfsConfig] ++ S [.subapSpacing] ++ run .findActiveSubaps ++ G [.telescope_diameter, .wfsConfig] ++ S [.subapDiam] ++
      G [.telescope_diameter, .config, .pupil_size, .subapSpacing] ++ S [.xGrad_1, .yGrad_1] ++ G [.xGrad_1] ++ S [.xGrad] ++ G [.yGrad_1] ++ S [.yGrad]⟩
  | .findActiveSubaps => some ⟨[], [], G [.mask, .sim_pad, .wfsConfig] ++ S [.subapCoords, .subapFillFactor] ++ G [.subapCoords] ++ S [.activeSubaps]⟩
  | .allocDataArrays => some ⟨[], [], [sup .Gradient .allocDataArrays []] ++ G [.activeSubaps, .subapSpacing] ++ S [.subapArrays] ++ G [.activeSubaps] ++ S [.slopes]⟩
  | .calcFocalPlane => some ⟨[.intensity], [],
      G [.los, .los_single, .mask, .sim_pad] ++ S [.pupilPhase] ++ G [.subapCoords] ++ [loop (G [.subapSpacing, .pupilPhase, .subapArrays])]⟩
  | .integrateDetectorPlane => some ⟨[], [], G [.wfsConfig] ++ S [.wfsDetectorPlane] ++ G [.subapCoords, .subapSpacing, .wfsDetectorPlane, .subapArrays]⟩
  | .calculateSlopes => some ⟨[], [],
      G [.subapArrays] ++ [loop (G [.xGrad, .slopes, .yGrad, .activeSubaps])] ++ G [.wfsConfig] ++ [ifa (G [.slopes, .activeSubaps]) []] ++
      [ifa (G [.iMat] ++ [ifa (G [.wfsConfig, .slopes, .activeSubaps]) []]) []] ++ G [.slopes]⟩
  | _ => none

/-! ### Pyramid (pyramid.py) -/

/-- `Pyramid.calcInitParams` (pyramid.py:101-143). -/
def pyrCalcInitParams : List Instr :=
  [sup .Pyramid .calcInitParams []] ++ G [.wfsConfig] ++ S [.pupil_separation, .nb_modulation, .amplitude_modulation] ++ G [.sim_size] ++ S [.size_array, .nx_subaps] ++ G [.pupil_size, .nx_subaps] ++ S [.bin] ++
  G [.size_array, .bin] ++ S [.detector_size, .detector, .count, .GSMag, .FOV] ++
  run .initFFTs ++ run .calcPyramidMask ++ run .calcCentroidMask ++ run .calcDetectorMask ++ run .calcTipTiltModulationsPoints ++ run .calcModulationMatrix ++ run .calcFlatSlopes ++
  G [.SlopeSize] ++ S [.n_measurements] ++ G [.los, .los_single]

/-- `Pyramid.initFFTs` (pyramid.py:145-169). -/
def pyrInitFFTs : List Instr :=
  G [.threads, .nb_modulation, .size_array] ++ S [.fft_input_data, .fft_output_data] ++ G [.fft_input_data, .fft_output_data, .threads, .config] ++ S [.FFT] ++
  G [.nb_modulation, .size_array] ++ S [.ifft_input_data, .ifft_output_data] ++ G [.ifft_input_data, .ifft_output_data, .threads, .config] ++ S [.iFFT] ++ G [.nb_modulation, .size_array] ++ S [.focal_plane]

/-- `Pyramid.calcFocalPlane` (pyramid.py:302-365). -/
def pyrCalcFocalPlane : List Instr :=
  [ifa (G [.nb_modulation]) []] ++ [ifc .maskd (G [.mask]) (G [.iMat] ++ [ifa (G [.los, .los_single]) (G [.los, .los_single])])] ++
  G [.modulation_phase_matrix, .centroidMask, .mask, .fft_input_data, .FFT, .size_array, .fft_output_data] ++ S [.focal_plane] ++ G [.ifft_input_data, .focal_plane, .pyramid_mask_phs_screen, .iFFT, .ifft_output_data] ++
  S [.wfsDetectorPlane] ++ G [.bin] ++ [ifa (G [.size_array, .bin, .wfsDetectorPlane] ++ S [.wfsDetectorPlane]) []] ++ [ifc .maskd [] (G [.wfsDetectorPlane] ++ S [.wfsDetectorPlane])] ++
  G [.config] ++ [ifa (run .addReadNoise) []]

/-- `Pyramid.calculateSlopes` (pyramid.py:367-409). -/
def pyrCalculateSlopes : List Instr :=
  G [.wfsDetectorPlane, .detector_mask] ++ S [.Xslopes, .Yslopes] ++ [ifc .flat (G [.Yslopes, .Xslopes] ++ S [.slopes]) (G [.Yslopes, .Xslopes, .flat_slopes] ++ S [.slopes])]

/-- The methods of `Pyramid` (pyramid.py:92-433). -/
def pyrMethods : Meth → Option Method
  | .calcInitParams => some ⟨[], [], pyrCalcInitParams⟩
  | .initFFTs => some ⟨[], [], pyrInitFFTs⟩
  | .calcCentroidMask => some ⟨[], [], G [.size_array] ++ S [.centroidMask]⟩
  | .calcDetectorMask => some ⟨[], [], G [.detector_size, .nx_subaps, .pupil_separation] ++ S [.detector_mask] ++ G [.detector_mask] ++ S [.SlopeSize]⟩
  | .calcPyramidMask => some ⟨[], [], G [.pupil_size, .nx_subaps, .pupil_separation, .size_array] ++ S [.apex] ++ G [.size_array, .apex] ++ S [.pyramid_mask] ++ G [.pyramid_mask] ++ S [.pyramid_mask_phs_screen]⟩
  | .calcTipTiltModulationsPoints => some ⟨[.ampl, .num_of_mod], [], [ifa (G [.amplitude_modulation, .telescope_diameter, .wavelength, .pupil_size]) []] ++ [ifa (G [.nb_modulation]) []] ++ S [.tip_mod, .tilt_mod]⟩
  | .calcModulationMatrix => some ⟨[.num_of_mod], [], [ifa (G [.nb_modulation]) []] ++ G [.size_array] ++ S [.modulation_phase_matrix] ++ [loop (G [.modulation_phase_matrix, .tip_mod, .tilt_mod])]⟩
  | .calcFocalPlane => some ⟨[.num_of_mod, .intensity, .maskd], [(.maskd, false)], pyrCalcFocalPlane⟩
  | .calculateSlopes => some ⟨[.flat], [(.flat, false)], pyrCalculateSlopes⟩
  | .addPhotonNoise => some ⟨[], [], G [.detector]⟩
  | .addReadNoise => some ⟨[], [], G [.wfsDetectorPlane, .config]⟩
  | .calcFlatSlopes => some ⟨[], [], [call .calcFocalPlane [.maskd] [(.maskd, true)]] ++ [call .calculateSlopes [.flat] [(.flat, true)]] ++ G [.slopes] ++ S [.flat_slopes]⟩
  | _ => none

/-! ### Extended Shack-Hartmann (extendedshackhartmann.py) -/

/-- `referenceImage` setter (extendedshackhartmann.py:196-233). -/
def extSetReference : List Instr :=
  [ifa (G [.activeSubaps, .wfsConfig] ++ S [.priv_referenceImage] ++ [ifa (S [.priv_referenceImage]) [ifa (G [.activeSubaps, .wfsConfig] ++ S [.priv_referenceImage])
    (G [.detectorPxls] ++ [ifa (G [.detectorSubapCoords] ++ [loop (G [.priv_referenceImage, .wfsConfig])]) []])]] ++ G [.priv_referenceImage] ++ S [.iReferenceImage])
    (S [.priv_referenceImage])]

/-- `extendedObject` setter (extendedshackhartmann.py:239-251). -/
def extSetObject : List Instr := [ifa (G [.subapFFTPadding] ++ S [.priv_extendedObject]) (S [.priv_extendedObject])]

/-- The methods of `ExtendedSH`. -/
def extMethods : Meth → Option Method
  | .calcInitParams => some ⟨[], [], [sup .ExtendedSH .calcInitParams []] ++ G [.wfsConfig] ++ S [.referenceImage]⟩
  | .setReference => some ⟨[], [], extSetReference⟩
  | .setObject => some ⟨[], [], extSetObject⟩
  | .getReference => some ⟨[], [], G [.priv_referenceImage]⟩
  | .getObject => some ⟨[], [], G [.priv_extendedObject]⟩
  | .initFFTs => some ⟨[], [],
      [sup .ExtendedSH .initFFTs []] ++ G [.activeSubaps, .wfsConfig] ++ S [.corrFFT] ++ G [.activeSubaps, .wfsConfig] ++ S [.corrIFFT] ++ G [.wfsConfig] ++ S [.extendedObject]⟩
  | .allocDataArrays => some ⟨[], [],
      [sup .ExtendedSH .allocDataArrays []] ++ G [.extendedObject] ++ [ifa (G [.FPSubapArrays, .extendedObject, .wfsConfig] ++ S [.objectConv]) (S [.objectConv])] ++ G [.centSubapArrays] ++ S [.corrSubapArrays]⟩
  | .integrateDetectorPlane => some ⟨[], [],
      G [.extendedObject] ++ [ifa (G [.FPSubapArrays, .objectConv, .extendedObject]) []] ++ G [.SUBAP_OVERSIZE] ++ [ifa (G [.subapFFTPadding, .SUBAP_OVERSIZE, .FPSubapArrays]) []] ++
      [sup .ExtendedSH .integrateDetectorPlane []]⟩
  | .makeCorrelationImgs => some ⟨[], [], G [.centSubapArrays, .config] ++ [ifa (G [.centSubapArrays, .referenceImage]) (G [.config, .centSubapArrays, .referenceImage])] ++ S [.corrSubapArrays]⟩
  | .calculateSlopes => some ⟨[], [],
      G [.activeSubaps] ++ [loop (G [.detectorSubapCoords, .centSubapArrays, .wfsDetectorPlane, .wfsConfig])] ++ G [.referenceImage] ++
      [ifa (run .makeCorrelationImgs) (G [.FPSubapArrays] ++ S [.corrSubapArrays])] ++ G [.wfsConfig, .corrSubapArrays, .staticData, .slopes, .activeSubaps] ++
      [ifa (G [.slopes, .activeSubaps]) []] ++ [ifa (G [.iMat] ++ [ifa (G [.wfsConfig, .slopes, .activeSubaps]) []]) []] ++ G [.slopes]⟩
  | _ => none

/-! ### Legacy Shack-Hartmann (shackhartmann_legacy.py) -/

/-- `ShackHartmannLegacy.calcInitParams` (shackhartmann_legacy.py:31-80). -/
def legCalcInitParams : List Instr :=
  [sup .ShackHartmannLegacy .calcInitParams []] ++ G [.wfsConfig] ++ S [.wavelength] ++ G [.config] ++ S [.subapFOVrad] ++ G [.los, .los_single, .config] ++ S [.subapDiam] ++ G [.pupil_size] ++ S [.PPSpacing] ++
  G [.subapDiam, .subapFOVrad, .config] ++ S [.subapFOVSpacing] ++ [ifa (S [.SUBAP_OVERSIZE]) (S [.SUBAP_OVERSIZE])] ++ S [.detectorPxls] ++ G [.SUBAP_OVERSIZE, .subapFOVSpacing] ++
  G [.config, .subapFOVSpacing, .sim_size, .pupil_size] ++ S [.scaledEFieldSize] ++ [ifa (G [.sim_size, .scaledEFieldSize, .phase_scale, .los, .los_single]) []] ++
  run .findActiveSubaps ++ G [.wfsConfig] ++ S [.referenceImage] ++ G [.activeSubaps] ++ S [.n_measurements]

/-- The methods of `ShackHartmannLegacy` (shackhartmann_legacy.py:31-474). -/
def legMethods : Meth → Option Method
  | .calcInitParams => some ⟨[], [], legCalcInitParams⟩
  | .findActiveSubaps => some ⟨[], [],
      G [.mask, .sim_pad, .wfsConfig] ++ S [.subapCoords, .subapFillFactor] ++ G [.subapCoords] ++ S [.activeSubaps] ++ G [.subapCoords, .detectorPxls, .pupil_size] ++ S [.detectorSubapCoords] ++ G [.mask] ++ run .setMask⟩
  | .setMask => some ⟨[], [],
      [sup .ShackHartmannLegacy .setMask []] ++ G [.mask, .scaledEFieldSize] ++ S [.scaledMask] ++ G [.sim_pad, .mask, .subapCoords, .pupil_size, .wfsConfig] ++ S [.subapFillFactor]⟩
  | .initFFTs => some ⟨[], [],
      G [.wfsConfig] ++ S [.subapFFTPadding] ++ G [.subapFFTPadding, .subapFOVSpacing] ++ [ifa [loop (G [.subapFFTPadding, .subapFOVSpacing, .wfsConfig] ++ S [.subapFFTPadding])] []] ++
      G [.activeSubaps, .subapFFTPadding, .wfsConfig] ++ S [.FFT] ++ G [.lgsConfig] ++
      [ifc .lgs [ifc .uplink (G [.activeSubaps, .subapFFTPadding, .wfsConfig] ++ S [.iFFT] ++ G [.subapFFTPadding, .wfsConfig] ++ S [.lgs_iFFT]) []] []]⟩
  | .initLGS => some ⟨[], [], [sup .ShackHartmannLegacy .initLGS []] ++ G [.lgsConfig] ++ [ifc .uplink (G [.config, .soapy_config, .subapFFTPadding] ++ [asg .lgs, asg .lgs_obj]) []]⟩
  | .allocDataArrays => some ⟨[], [],
      G [.los, .los_single] ++ G [.activeSubaps, .subapFOVSpacing] ++ S [.subapArrays] ++ G [.wfsConfig] ++ S [.binnedFPSubapArrays] ++ G [.activeSubaps, .subapFFTPadding] ++ S [.FPSubapArrays] ++ G [.detectorPxls] ++
      S [.wfsDetectorPlane] ++ G [.activeSubaps, .config, .wfsConfig] ++ S [.centSubapArrays] ++ G [.activeSubaps] ++ S [.slopes]⟩
  | .calcTiltCorrect => some ⟨[], [],
      G [.wfsConfig] ++ [ifa (G [.SUBAP_OVERSIZE, .subapFOVrad, .subapFFTPadding, .subapDiam, .subapFOVSpacing] ++ S [.tiltFix]) (G [.subapFOVSpacing] ++ S [.tiltFix])]⟩
  | .getStatic => some ⟨[], [], S [.staticData] ++ G [.screen_size] ++ [call .frame [.iMatFrame] [(.imat, true)]] ++ G [.activeSubaps] ++ S [.staticData]⟩
  | .zeroData => some ⟨[.detector, .FP], [], run .zeroPhaseData ++ [ifa (G [.FPSubapArrays]) []] ++ [ifa (G [.wfsDetectorPlane]) []]⟩
  | .calcFocalPlane => some ⟨[.intensity], [],
      G [.config] ++ [ifa (G [.los, .los_single]) (G [.los, .los_single, .scaledEFieldSize])] ++ G [.scaledMask, .scaledEFieldSize, .wfsConfig, .subapFOVSpacing] ++ S [.cropEField] ++ G [.activeSubaps] ++
      [loop (G [.subapCoords, .subapFOVSpacing, .PPSpacing, .subapArrays, .cropEField])] ++ G [.FFT, .subapFOVSpacing, .subapArrays, .tiltFix] ++ [ifa (G [.FPSubapArrays, .FFT]) (G [.FPSubapArrays, .FFT])] ++ S [.FPSubapArrays] ++
      G [.FPSubapArrays] ++ S [.FPSubapsArrays]⟩
  | .integrateDetectorPlane => some ⟨[], [],
      G [.wfsConfig] ++ [ifc .lgs (G [.lgs] ++ [ifc .uplink (G [.lgsConfig, .iMat] ++ [ifa (run .applyLgsUplink) []]) []]) []] ++ G [.binnedFPSubapArrays, .FPSubapArrays, .wfsConfig, .subapFillFactor] ++
      S [.binnedFPSubapArrays] ++ G [.activeSubaps] ++ [loop (G [.detectorSubapCoords, .wfsConfig, .detectorPxls, .wfsDetectorPlane, .binnedFPSubapArrays])]⟩
  | .readDetectorPlane => some ⟨[], [], G [.wfsDetectorPlane, .wfsConfig, .mask, .phase_scale] ++ [ifa (run .addPhotonNoise) []] ++ [ifa (run .addReadNoise) []]⟩
  | .applyLgsUplink => some ⟨[], [], G [.lgs, .lgs_obj, .los, .lgs_iFFT] ++ S [.iFFTLGSPSF] ++ G [.iFFT, .FPSubapArrays] ++ S [.iFFTFPSubapsArray] ++ G [.iFFTFPSubapsArray, .iFFTLGSPSF, .FFT, .FPSubapArrays]⟩
  | .calculateSlopes => some ⟨[], [],
      G [.activeSubaps] ++ [loop (G [.detectorSubapCoords, .centSubapArrays, .wfsDetectorPlane, .wfsConfig])] ++ G [.wfsConfig, .centSubapArrays, .referenceImage, .staticData, .slopes, .activeSubaps] ++
      [ifa (G [.slopes, .activeSubaps]) []] ++ [ifa (G [.iMat] ++ [ifa (G [.wfsConfig, .slopes, .activeSubaps]) []]) []] ++ G [.slopes]⟩
  | _ => none

/-! ### Zernike (zernike.py) -/

/-- The methods of `Zernike` (zernike.py:16-67). -/
def zernMethods : Meth → Option Method
  | .calcInitParams => some ⟨[.phaseSize], [],
      [sup .Zernike .calcInitParams [.phaseSize]] ++ G [.config] ++ S [.n_zerns] ++ G [.n_zerns] ++ S [.n_measurements] ++ G [.n_zerns, .pupil_size] ++ S [.zernike_array] ++ G [.zernike_array, .n_zerns, .pupil_size] ++ S [.zernike_array]⟩
  | .allocDataArrays => some ⟨[], [], [glob .numpy] ++ G [.pupil_size] ++ [glob .base] ++ S [.wfsDetectorPlane]⟩
  | .integrateDetectorPlane => some ⟨[], [], G [.sim_size, .pupil_size, .los, .los_single] ++ S [.pupil_phase] ++ G [.wfsDetectorPlane, .pupil_phase] ++ S [.wfsDetectorPlane]⟩
  | .readDetectorPlane => some ⟨[], [], G [.wfsDetectorPlane] ++ S [.detector_data]⟩
  | .calculateSlopes => some ⟨[], [], G [.zernike_array, .detector_data] ++ S [.slopes]⟩
  | .zeroData => some ⟨[.detector, .FP], [], [sup .Zernike .zeroData []] ++ [ifa (G [.wfsDetectorPlane]) []]⟩
  | _ => none

/-- Methods defined in a class itself. -/
def methods : Cls → Meth → Option Method
  | .WFS => wfsMethods
  | .ShackHartmann => shMethods
  | .Gradient => gradMethods
  | .Pyramid => pyrMethods
  | .ExtendedSH => extMethods
  | .ShackHartmannLegacy => legMethods
  | .Zernike => zernMethods

/-- The chain of base classes, the class itself first (the class statements in wfs.py:103, shackhartmann.py:39, gradient.py:36, pyramid.py:93, extendedshackhartmann.py:33, shackhartmann_legacy.py:26, zernike.py:15). -/
def mro : Cls → List Cls
  | .WFS => [.WFS]
  | .ShackHartmann => [.ShackHartmann, .WFS]
  | .Gradient => [.Gradient, .WFS]
  | .Pyramid => [.Pyramid, .WFS]
  | .ExtendedSH => [.ExtendedSH, .ShackHartmann, .WFS]
  | .ShackHartmannLegacy => [.ShackHartmannLegacy, .WFS]
  | .Zernike => [.Zernike, .WFS]

/-- Look a method up. -/
def find (m : Meth) : List Cls → Option Method
  | [] => none
  | c :: cs => match methods c m with
    | some x => some x
    | none => find m cs

/-- Properties: what an assignment to, or a read of, `self.a` calls (extendedshackhartmann.py:189-251; the property `EField` of the base class is written out where it is used). -/
def setter : Cls → Att → Option Meth
  | .ExtendedSH, .referenceImage => some .setReference
  | .ExtendedSH, .extendedObject => some .setObject
  | _, _ => none

/-- See `setter`. -/
def getter : Cls → Att → Option Meth
  | .ExtendedSH, .referenceImage => some .getReference
  | .ExtendedSH, .extendedObject => some .getObject
  | _, _ => none

/-- Module-level names that exist in the file of the method: `base` is imported nowhere (zernike.py:8-12). -/
def defined : Glob → Bool
  | .numpy => true
  | .base => false

/-! ### Executions -/

/-- Kinds of failure. -/
inductive Err
  | attributeError (a : Att)
  | noMethod (m : Meth)
  | nameError (g : Glob)
  | typeError (m : Meth)
  deriving DecidableEq

/-- Which attributes the object has. -/
abbrev Obj := Att → Bool

/-- Values of the conditions. -/
abbrev Env := Cond → Bool

/-- Arguments override. -/
def bind (env : Env) (args : List (Cond × Bool)) : Env := fun c => match args.find? (·.1 = c) with
  | some p => p.2
  | none => env c

/-- What a call enters: the method's body with its environment, or an error. -/
def enter (cs : List Cls) (env : Env) (m : Meth) (kw : List Kw) (args : List (Cond × Bool)) : Except Err (Env × List Instr) :=
  match find m cs with
  | none => .error (.noMethod m)
  | some x => if kw.all (· ∈ x.params) then .ok (bind (bind env x.dflt) args, x.body) else .error (.typeError m)

/-- The classes after `c` in the chain of `cls`. -/
def after (cls c : Cls) : List Cls := ((mro cls).dropWhile (· ≠ c)).tail

/-- One statement or a list of statements. -/
inductive Code
  | one (i : Instr)
  | seq (l : List Instr)

/-- All executions on an object of class `cls`: how they can end. -/
inductive Exec (cls : Cls) : Env → Obj → Code → Except Err Obj → Prop
  | nil (env o) : Exec cls env o (.seq []) (.ok o)
  | cons_ok (env o i r o' res) : Exec cls env o (.one i) (.ok o') → Exec cls env o' (.seq r) res → Exec cls env o (.seq (i :: r)) res
  | cons_err (env o i r e) : Exec cls env o (.one i) (.error e) → Exec cls env o (.seq (i :: r)) (.error e)
  | asg (env o a) : setter cls a = none → Exec cls env o (.one (asg a)) (.ok (Function.update o a true))
  | asg_prop (env o a m res) : setter cls a = some m → Exec cls env o (.one (call m [] [])) res → Exec cls env o (.one (asg a)) res
  | rd_ok (env o a) : getter cls a = none → o a = true → Exec cls env o (.one (rd a)) (.ok o)
  | rd_err (env o a) : getter cls a = none → o a = false → Exec cls env o (.one (rd a)) (.error (.attributeError a))
  | rd_prop (env o a m res) : getter cls a = some m → Exec cls env o (.one (call m [] [])) res → Exec cls env o (.one (rd a)) res
  | del (env o a) : Exec cls env o (.one (del a)) (.ok (Function.update o a false))
  | glob_ok (env o g) : defined g = true → Exec cls env o (.one (glob g)) (.ok o)
  | glob_err (env o g) : defined g = false → Exec cls env o (.one (glob g)) (.error (.nameError g))
  | call_bad (env o m kw args e) : enter (mro cls) env m kw args = .error e → Exec cls env o (.one (call m kw args)) (.error e)
  | call (env o m kw args env' b res) : enter (mro cls) env m kw args = .ok (env', b) → Exec cls env' o (.seq b) res → Exec cls env o (.one (call m kw args)) res
  | sup_bad (env o c m kw e) : enter (after cls c) env m kw [] = .error e → Exec cls env o (.one (sup c m kw)) (.error e)
  | sup (env o c m kw env' b res) : enter (after cls c) env m kw [] = .ok (env', b) → Exec cls env' o (.seq b) res → Exec cls env o (.one (sup c m kw)) res
  | ifc (env o c t e res) : Exec cls env o (.seq (if env c then t else e)) res → Exec cls env o (.one (ifc c t e)) res
  | ifa_true (env o t e res) : Exec cls env o (.seq t) res → Exec cls env o (.one (ifa t e)) res
  | ifa_false (env o t e res) : Exec cls env o (.seq e) res → Exec cls env o (.one (ifa t e)) res
  | loop_end (env o b) : Exec cls env o (.one (loop b)) (.ok o)
  | loop_err (env o b e) : Exec cls env o (.seq b) (.error e) → Exec cls env o (.one (loop b)) (.error e)
  | loop_more (env o b o' res) : Exec cls env o (.seq b) (.ok o') → Exec cls env o' (.one (loop b)) res → Exec cls env o (.one (loop b)) res

/-- The conditions a configuration decides. -/
structure Cfg where
  lgs : Bool
  uplink : Bool
  elong : Bool
  precomp : Bool

/-- Outside of any method only the configuration's conditions have a meaning. -/
def Cfg.env (c : Cfg) : Env
  | .lgs => c.lgs
  | .uplink => c.uplink
  | .elong => c.elong
  | .precomp => c.precomp
  | _ => false

/-- A fresh object has no attributes. -/
def fresh : Obj := fun _ => false

/-- `Cls(…)` -/
def construct : List Instr := run .init

/-- One use of a sensor after it was made: a frame with any arguments, a simple frame, a new mask, or the number of measurements (simulation.py:220, 388-404; reconstruction.py:82, 305-307). -/
inductive Use
  | frame (read corr imat : Bool)
  | simple (imat : Bool)
  | setMask
  | size
  deriving DecidableEq

/-- The statement of a use. -/
def Use.code : Use → List Instr
  | .frame r c i => [call .frame [.phase_correction, .read, .iMatFrame] [(.read, r), (.corr, c), (.imat, i)]]
  | .simple i => [call .simple_frame [.iMatFrame] [(.imat, i)]]
  | .setMask => [call .setMask [] []]
  | .size => [rd .n_measurements]

/-- What can happen to a new object of class `cls` that is made and then used like this. -/
def Life (cls : Cls) (cfg : Cfg) (us : List Use) (res : Except Err Obj) : Prop := Exec cls cfg.env fresh (.seq (construct ++ us.flatMap Use.code)) res

end Soapy.Attr
