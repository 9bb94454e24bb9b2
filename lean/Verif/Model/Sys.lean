/-
Which attributes, methods and module-level names a whole simulation needs and has: `Sim`, its mirrors, its reconstructor and its science cameras as programs of `Model/Prog.lean`.
The attributes of all these objects are the attributes of one object here, with a prefix: `s_` simulation, `d_` mirrors, `r_` reconstructor, `p_` cameras, `w_` sensors, `c_` the configuration where the simulation writes into it.

Simplifications: those of `Model/Prog.lean`; what is done to one mirror (sensor, camera) of a loop over them is done to all at once, so they are of one type and set alike; at least one sensor; parameters that a configuration file sets exist (C36);
sensors are reduced to the attributes others use (C89 is about them); files can be written; list and dictionary indices and array shapes always fit.
-/
import Verif.Model.Prog

namespace Soapy.Sys

open Soapy.Prog Soapy.Prog.Instr

/-- One after the other. -/
local infixr:65 " ;; " => List.append

/-- Classes (simulation.py; DM.py; reconstruction.py; scienceinstrument.py). -/
inductive Cls
  | Sim | DM | CustomShapes | KarhunenLoeve | Zernike | Piezo | GaussStack | TT | FastPiezo | Reconstructor | MVM | MVM_SeparateDMs | LearnAndApply | LearnAndApplyLTAO | GLAO_4LGS | WooferTweeter | LgsTT | ANN | PSFCamera | singleModeFibre
  deriving DecidableEq

/-- Methods. -/
inductive Meth
  | s_init | s_readParams | s_aoinit | s_makeIMat | s_runWfs_noMP | s_runWfs_MP | s_runDM | s_runSciCams | s_loopFrame | s_aoloop | s_start | s_stop | s_thread | s_reset_loop | s_finishUp | s_initSaveData
  | s_storeData | s_saveData | s_makeSaveHeader | s_getTimeStamp | s_printOutput | s_addToGuiQueue | w_init | w_frame | d_init | d_getActiveActs | d_dmFrame | d_makeDMFrame | d_reset | d_makeIMatShapes | d_getValid | d_setValid
  | r_init | r_find_closed_actuators | r_saveCMat | r_loadCMat | r_save_interaction_matrix | r_load_interaction_matrix | r_makeIMat | r_make_dm_iMat | r_get_dm_imat | r_makeCMat | r_apply_gain | r_reconstruct | r_reset | r_calcCMat | r_initControlMatrix | r_learn
  | r_initcontrol_matrix | r_removeCommonTT | p_init | p_reset | p_setMask | p_calcFocalPlane | p_calcInstStrehl | p_calc_wavefronterror | p_frame | p_fibreEfield | p_refCouplingLoss
  deriving DecidableEq

/-- Attributes; `w_int_n_measurements` stands for: an `int` has `n_measurements`; `m_numpy_inv` for: `numpy` has `inv`. -/
inductive Att
  | s_guiQueue | s_go | s_priv_sim_running | s_configFile | s_config | w_n_measurements | w_n_subaps | w_activeSubaps | w_wfsDetectorPlane | w_lgs | w_uncorrectedPhase | w_lgs_psf | s_mask | s_atmos | s_runWfs | s_wfss
  | c_totalWfsData | s_wfsFrameNo | c_wfsss | c_dataStart | s_dms | s_dmActCommands | c_totalActs | s_dmShape | s_dmAct1 | d_n_acts | s_recon | s_sciCams | s_sciImgs | s_sciImgNo | s_slopes | s_closed_correction
  | s_open_correction | s_dmCommands | s_buffer | s_iters | s_Twfs | s_Tlgs | s_Tdm | s_Tsci | s_Trecon | s_Timat | s_Tatmos | d_n_valid_actuators | s_scrns | w_LGS | s_dmShapes | p_long_exp_image
  | s_combinedCorrection | s_priv_loop_thread | s_allSlopes | s_allDmCommands | s_longStrehl | s_ee50d | r_Trecon | c_saveHeader | s_timeStamp | s_path | s_instStrehl | s_WFE | s_sciPhase | s_lgsPsfs | s_sciImgsInst | s_scieFieldInst
  | p_instStrehl | p_longExpStrehl | p_residual | p_detector | p_focalPlane_efield | p_fov | p_nx_pixels | s_time | d_dmConfig | s_waitingPlot | d_dm_shape | s_guiLock | d_soapy_config | d_n_dm | d_simConfig | d_config
  | d_pupil_size | d_sim_size | d_scrn_size | d_altitude | d_diameter | d_telescope_diameter | d_wfss | d_mask | d_nx_dm_elements | d_dm_frame | d_dm_screen | d_screen_coord | d_actCoeffs | d_wfs | d_iMatShapes | d_priv_valid_actuators
  | d_nacts | d_spcing | d_valid_act_coords | d_xActs | d_n_active_actuators | d_actGrid | d_dmSize | r_soapy_config | r_dms | r_wfss | r_sim_config | r_atmos | r_config | r_n_dms | r_scrn_size | r_learnIters
  | r_dmActs | r_dmConds | r_dmTypes | r_first_acts | r_first_measurements | r_runWfs | r_moveScrns | r_control_matrix | r_controlShape | r_actuator_values | r_closed_actuators | r_interaction_matrix | d_valid_actuators | r_simConfig | r_new_actuator_values | w_int_n_measurements
  | r_tomoRecon | r_learnSlopes | r_learnIter | r_covMat | r_controlMatrix | d_iMat | m_numpy_inv | r_net | p_soapy_config | p_config | p_sciConfig | p_simConfig | p_sim_size | p_pupil_size | p_sim_pad | p_threads
  | p_telescope_diameter | p_fov_rad | p_FOVPxlNo | p_crop_fov_factor | p_fov_crop_elements | p_padFOVPxlNo | p_fov_sim_pad | p_mask | p_los | p_scaledMask | p_FFTPadding | p_fft_crop_elements | p_fft_input_data | p_fft_output_data | p_fft_calculator | p_phsNm2Rad
  | p_interp_coords | p_interp_phase | p_focus_efield | p_focus_intensity | p_priv_long_exp_image | p_bestPSF | p_psfMax | p_EField_fov | p_fov_focus_efield | p_normMask | p_fibreSize | p_refStrehl | p_fibre_efield | s_gui
  deriving DecidableEq

/-- No module-level name is in doubt here. -/
inductive Glob
  | numpy
  deriving DecidableEq

/-- Keywords of calls. -/
inductive Kw
  | scrns | dmShape | wfsList | loopIter | closed | strehl | callback | loadIMat | loadCMat | progressCallback
  deriving DecidableEq

/-- Conditions.  Of the sensors: `senN`, `senSub`, `senAct` (they have `n_measurements`, `n_subaps`, `activeSubaps`), `senLgs` (they image a laser going up), `uplink`.  Of the configuration: `mp` (`wfsMP`), `loadWfs` (a `loadModule` for a sensor), `dms` and `sci` (there are mirrors,
cameras), `mirrorClosed`, `attached` (`dms[i].wfs` is set), `many` (more than 1000 modes), `equalSize` (piezo grid as large as the screen), `oneMirror`, `ttFirst`, `named` (`simName` is set), `phys` and `up` (of the cameras),
`saveLgs`, `instPsf`, `instField`, `sciRes`, `saveLearn`, `saveWfe`, `saveStrehl`.  Of the user: `gui` (there is a GUI).  Of the disk: `present` (files to load are there and fit).  Arguments: `file`, `imat`, `forceNew`, `scr`, `iter`, `closed`, `loadI`, `loadC`. -/
inductive Cond
  | senN | senSub | senAct | senLgs | uplink | mp | loadWfs | dms | sci | mirrorClosed | attached | many | equalSize | oneMirror | ttFirst | named | phys | up | saveLgs | instPsf | instField | sciRes | saveLearn | saveWfe | saveStrehl | gui | present
  | file | imat | forceNew | scr | iter | closed | loadI | loadC
  deriving DecidableEq

/-- Other exceptions; `blocked` stands for waiting for ever. -/
inductive Exc
  | ioError | interrupt | configuration | noneType | blocked
  deriving DecidableEq

/-- Statements here. -/
abbrev I := Instr Cls Att Meth Glob Kw Cond Exc

/-- Several reads. -/
def G (l : List Att) : List I := reads l

/-- Several assignments. -/
def S (l : List Att) : List I := sets l

/-- `self.m()` -/
def run (m : Meth) : List I := Prog.run m

/-- A loop with at least one round. -/
def some1 (b : List I) : List I := [loop1 b]




/-- A loop over the sensors. -/
def sensors (b : List I) : List I := some1 b

/-- A loop over the mirrors. -/
def mirrors (b : List I) : List I := [ifc .dms (some1 b) []]

/-- A loop over the cameras. -/
def cameras (b : List I) : List I := [ifc .sci (some1 b) []]

/-- A new object has no attributes. -/
def renew (l : List Att) : List I := l.map del

/-- Reading a file, or checking it. -/
def io : List I := [ifc .present [] [ifa [raise .ioError] []]]

/-- Attributes of mirrors. -/
def mirrorAtts : List Att := [.d_n_acts, .d_n_valid_actuators, .d_dmConfig, .d_dm_shape, .d_soapy_config, .d_n_dm, .d_simConfig, .d_config, .d_pupil_size, .d_sim_size, .d_scrn_size, .d_altitude, .d_diameter, .d_telescope_diameter, .d_wfss, .d_mask, .d_nx_dm_elements, .d_dm_frame, .d_dm_screen, .d_screen_coord, .d_actCoeffs, .d_wfs, .d_iMatShapes, .d_priv_valid_actuators, .d_nacts, .d_spcing, .d_valid_act_coords, .d_xActs, .d_n_active_actuators, .d_actGrid, .d_dmSize, .d_valid_actuators, .d_iMat]

/-- Attributes of reconstructors. -/
def reconAtts : List Att := [.r_Trecon, .r_soapy_config, .r_dms, .r_wfss, .r_sim_config, .r_atmos, .r_config, .r_n_dms, .r_scrn_size, .r_learnIters, .r_dmActs, .r_dmConds, .r_dmTypes, .r_first_acts, .r_first_measurements, .r_runWfs, .r_moveScrns, .r_control_matrix, .r_controlShape, .r_actuator_values, .r_closed_actuators, .r_interaction_matrix, .r_simConfig, .r_new_actuator_values, .r_tomoRecon, .r_learnSlopes, .r_learnIter, .r_covMat, .r_controlMatrix, .r_net]

/-- Attributes of cameras. -/
def cameraAtts : List Att := [.p_long_exp_image, .p_instStrehl, .p_longExpStrehl, .p_residual, .p_detector, .p_focalPlane_efield, .p_fov, .p_nx_pixels, .p_soapy_config, .p_config, .p_sciConfig, .p_simConfig, .p_sim_size, .p_pupil_size, .p_sim_pad, .p_threads, .p_telescope_diameter, .p_fov_rad, .p_FOVPxlNo, .p_crop_fov_factor, .p_fov_crop_elements, .p_padFOVPxlNo, .p_fov_sim_pad, .p_mask, .p_los, .p_scaledMask, .p_FFTPadding, .p_fft_crop_elements, .p_fft_input_data, .p_fft_output_data, .p_fft_calculator, .p_phsNm2Rad, .p_interp_coords, .p_interp_phase, .p_focus_efield, .p_focus_intensity, .p_priv_long_exp_image, .p_bestPSF, .p_psfMax, .p_EField_fov, .p_fov_focus_efield, .p_normMask, .p_fibreSize, .p_refStrehl, .p_fibre_efield]

/-- Attributes of sensors. -/
def wfsAtts : List Att := [.w_n_measurements, .w_n_subaps, .w_activeSubaps, .w_wfsDetectorPlane, .w_lgs, .w_uncorrectedPhase, .w_lgs_psf, .w_LGS, .w_int_n_measurements]

/-! ### The simulation (simulation.py) -/

/-- `Sim.__init__` (simulation.py:116-125). -/
def simInit : List I := [call .self .s_readParams [] [(.file, true)]] ;; S [.s_guiQueue, .s_go, .s_priv_sim_running]

/-- `Sim.readParams` (simulation.py:128-141). -/
def simReadParams : List I := [ifc .file (S [.s_configFile]) []] ;; G [.s_configFile] ;; S [.s_config]

/-- A new sensor: what it has is given by `senN`, `senSub`, `senAct` (C89); its line of sight and detector exist after `__init__`. -/
def wfsInit : List I :=
  [ifc .senN (S [.w_n_measurements]) [], ifc .senSub (S [.w_n_subaps]) [], ifc .senAct (S [.w_activeSubaps]) []] ;; [ifa (S [.w_wfsDetectorPlane]) [], ifc .uplink (S [.w_lgs]) []]

/-- A frame of a sensor: C89 says it does not fail (wfs.py:397-470); a pyramid has an image only after its first frame (pyramid.py:354), and a Shack-Hartmann sensor images its laser only in frames that are not for an interaction matrix (shackhartmann.py:365, 405). -/
def wfsFrame : List I := S [.w_wfsDetectorPlane] ;; [ifa (S [.w_uncorrectedPhase]) [], ifc .imat [] [ifc .uplink [ifc .senLgs (S [.w_lgs_psf]) []] []]]

/-- `Sim.aoinit` (simulation.py:158-314). -/
def simAoinit : List I :=
  [attempt .bare (G [.s_config]) [call .self .s_readParams [] [(.file, false)]]] ;; G [.s_config] ;; run .s_getTimeStamp ;;
  S [.s_mask] ;; S [.s_atmos] ;; [ifc .mp (S [.s_runWfs]) (S [.s_runWfs])] ;;
  S [.s_wfss] ;; S [.c_totalWfsData] ;; S [.s_wfsFrameNo] ;;
  sensors (
    [attempt .attribute (G [.s_config] ;; [ifc .loadWfs (G [.c_wfsss]) []] ;; G [.s_config]) [raise .configuration]] ;;
    G [.s_mask, .s_config] ;; renew wfsAtts ;; run .w_init ;; G [.s_wfss] ;; G [.c_totalWfsData] ;; S [.c_dataStart] ;; G [.c_totalWfsData, .w_n_measurements] ;; S [.c_totalWfsData] ;; G [.w_n_measurements]) ;;
  S [.s_dms] ;; S [.s_dmActCommands] ;; S [.c_totalActs] ;; S [.s_dmShape] ;; S [.s_dmAct1] ;;
  mirrors (
    G [.s_dmAct1, .c_totalActs] ;; G [.s_config, .s_wfss, .s_mask] ;; renew mirrorAtts ;; run .d_init ;; G [.s_dms] ;; G [.s_dmActCommands, .d_n_acts] ;; G [.s_dmAct1, .c_totalActs] ;; S [.c_totalActs]) ;;
  G [.c_totalActs] ;;
  G [.s_config, .s_dms, .s_wfss, .s_atmos, .s_runWfs] ;; renew reconAtts ;; run .r_init ;; S [.s_recon] ;;
  S [.s_sciCams] ;; S [.s_sciImgs] ;; S [.s_sciImgNo] ;;
  cameras (G [.s_config, .s_mask] ;; renew cameraAtts ;; run .p_init ;; G [.s_sciCams] ;; G [.s_sciImgs]) ;;
  run .s_initSaveData ;;
  G [.c_totalWfsData] ;; S [.s_slopes] ;; S [.s_closed_correction] ;; G [.s_closed_correction] ;; S [.s_open_correction] ;; G [.c_totalActs] ;; S [.s_dmCommands] ;; S [.s_buffer] ;; S [.s_iters] ;;
  S [.s_Twfs, .s_Tlgs, .s_Tdm, .s_Tsci, .s_Trecon, .s_Timat, .s_Tatmos]

/-- `Sim.makeIMat` (simulation.py:317-360). -/
def simMakeIMat : List I :=
  [ifc .forceNew [call .self .r_makeCMat [.loadIMat, .loadCMat, .callback, .progressCallback] [(.loadI, false), (.loadC, false)]]
    [ifc .named [call .self .r_makeCMat [.loadIMat, .loadCMat, .callback, .progressCallback] [(.loadI, true), (.loadC, true)]]
      [call .self .r_makeCMat [.loadIMat, .loadCMat, .callback, .progressCallback] [(.loadI, false), (.loadC, false)]]]] ;;
  G [.s_config, .s_recon] ;; S [.s_dmAct1] ;; S [.c_totalActs] ;;
  G [.s_dms] ;; mirrors (G [.s_dmAct1, .c_totalActs] ;; G [.c_totalActs, .d_n_valid_actuators] ;; S [.c_totalActs]) ;;
  G [.c_totalActs] ;; S [.s_dmCommands] ;; G [.s_Timat] ;; S [.s_Timat]

/-- `Sim.runWfs_noMP` (simulation.py:363-407): without `loopIter` it adds one to `None`. -/
def simRunWfs : List I :=
  [ifc .scr (S [.s_scrns]) []] ;; G [.s_config] ;; sensors (G [.s_wfss, .w_n_measurements]) ;;
  sensors ([ifc .iter (G [.s_wfsFrameNo]) [raise .noneType]] ;; G [.s_wfss, .w_n_measurements, .s_scrns] ;; [call .self .w_frame [] [(.imat, false)]] ;; G [.w_n_measurements]) ;; G [.s_Twfs] ;; S [.s_Twfs]

/-- `Sim.runWfs_MP` and `multiWfs` (simulation.py:410-480, 1206-1231): a child that finds no `LGS` puts nothing in the queue, and the parent waits. -/
def simRunWfsMP : List I :=
  [ifc .scr (S [.s_scrns]) []] ;; G [.s_config] ;; sensors (G [.s_wfss, .w_n_measurements]) ;;
  sensors ([ifa (G [.s_wfsFrameNo]) []] ;; G [.s_scrns, .s_wfss]) ;;
  sensors ([call .self .w_frame [] [(.imat, false)]] ;; [has .w_LGS [] [raise .blocked]] ;; G [.s_wfss, .w_n_measurements] ;; S [.w_wfsDetectorPlane, .w_uncorrectedPhase]) ;; G [.s_Twfs] ;; S [.s_Twfs]

/-- `Sim.runDM` (simulation.py:483-509). -/
def simRunDM : List I :=
  S [.s_dmShapes] ;; [ifc .closed (G [.s_closed_correction]) (G [.s_open_correction])] ;; G [.s_config] ;;
  mirrors (
    let one := G [.s_dms, .s_dmAct1, .d_n_valid_actuators] ;; run .d_dmFrame
    [ifc .closed [ifc .mirrorClosed one []] [ifc .mirrorClosed [] one]]) ;;
  G [.s_Tdm] ;; S [.s_Tdm]

/-- `Sim.runSciCams` (simulation.py:512-528). -/
def simRunSciCams : List I :=
  G [.s_sciImgNo] ;; S [.s_sciImgNo] ;; G [.s_config] ;; cameras (G [.s_sciCams, .s_scrns] ;; run .p_frame ;; G [.s_sciCams, .p_long_exp_image, .s_sciImgs]) ;; G [.s_Tsci] ;; S [.s_Tsci]

/-- `Sim.loopFrame` (simulation.py:531-579). -/
def simLoopFrame : List I :=
  G [.s_atmos] ;; S [.s_scrns] ;; G [.s_Tatmos] ;; S [.s_Tatmos] ;; G [.s_config] ;;
  [ifc .dms (G [.s_recon, .s_slopes] ;; run .r_reconstruct ;; G [.s_dmCommands]) []] ;; G [.s_Trecon] ;; S [.s_Trecon] ;;
  G [.s_buffer, .s_dmCommands, .s_config] ;; S [.s_dmCommands] ;;
  G [.s_dmCommands] ;; [call .self .s_runDM [.closed] [(.closed, true)]] ;; S [.s_closed_correction] ;;
  G [.s_runWfs, .s_closed_correction, .s_iters] ;; [ifc .mp [call .self .s_runWfs_MP [.dmShape, .loopIter] [(.iter, true)]] [call .self .s_runWfs_noMP [.dmShape, .loopIter] [(.iter, true)]]] ;; S [.s_slopes] ;;
  G [.s_dmCommands] ;; [call .self .s_runDM [.closed] [(.closed, false)]] ;; S [.s_open_correction] ;;
  G [.s_open_correction, .s_closed_correction] ;; S [.s_combinedCorrection] ;; G [.s_combinedCorrection] ;; run .s_runSciCams ;;
  G [.s_iters, .s_config] ;; run .s_storeData ;; G [.s_iters] ;; [call .self .s_printOutput [.strehl] []] ;; run .s_addToGuiQueue ;; G [.s_iters] ;; S [.s_iters]

/-- `Sim.aoloop` (simulation.py:582-603): Ctrl-C between two frames is caught. -/
def simAoloop : List I :=
  S [.s_go] ;; [attempt (.only .interrupt) [loop (G [.s_iters, .s_config, .s_go] ;; [ifa [raise .interrupt] []] ;; run .s_loopFrame)] (S [.s_go])] ;; run .s_saveData ;; run .s_finishUp

/-- `Sim.start_aoloop_thread` (simulation.py:606-619) when no thread runs. -/
def simStart : List I := G [.s_priv_sim_running] ;; S [.s_priv_loop_thread] ;; S [.s_priv_sim_running] ;; G [.s_priv_loop_thread]

/-- `Sim.stop_aoloop_thread` (simulation.py:622-639) when a thread runs. -/
def simStop : List I := G [.s_priv_sim_running] ;; S [.s_priv_sim_running] ;; G [.s_priv_loop_thread] ;; run .s_saveData ;; run .s_finishUp

/-- `Sim._aoloop_thread` (simulation.py:642-647). -/
def simThread : List I := G [.s_priv_sim_running] ;; [loop (run .s_loopFrame ;; G [.s_priv_sim_running])]

/-- `Sim.reset_loop` (simulation.py:650-674). -/
def simResetLoop : List I :=
  S [.s_iters] ;; G [.s_slopes, .s_dmCommands, .s_config] ;; [ifa (G [.s_allSlopes]) []] ;; [ifa (G [.s_allDmCommands]) []] ;; G [.s_recon] ;; run .r_reset ;;
  [ifc .sci (G [.s_longStrehl, .s_ee50d, .s_sciImgs] ;; G [.s_sciCams] ;; cameras (run .p_reset)) []] ;; G [.s_dms] ;; mirrors (run .d_reset)

/-- `Sim.finishUp` (simulation.py:677-698). -/
def simFinishUp : List I :=
  G [.s_iters, .s_config] ;; [has .s_longStrehl (G [.s_longStrehl] ;; cameras (G [.s_longStrehl] ;; [has .s_ee50d (G [.s_ee50d]) []])) []] ;;
  G [.s_Tatmos, .s_Timat, .s_Twfs, .s_Tlgs, .s_recon, .r_Trecon, .s_Tdm, .s_Tsci]

/-- `Sim.initSaveData` (simulation.py:701-801). -/
def simInitSaveData : List I :=
  run .s_makeSaveHeader ;; S [.c_saveHeader] ;; G [.s_config] ;;
  [ifc .named (G [.s_timeStamp] ;; S [.s_path] ;; G [.s_path] ;; G [.s_configFile, .s_path]) []] ;;
  [ifc .sci (S [.s_instStrehl] ;; S [.s_longStrehl] ;; S [.s_ee50d] ;; S [.s_WFE]) []] ;;
  S [.s_sciPhase] ;; [ifc .sciRes [ifc .sci (cameras (G [.s_sciPhase])) []] []] ;;
  [ifa (G [.c_totalWfsData] ;; S [.s_allSlopes]) (S [.s_allSlopes])] ;; [ifa (G [.c_totalActs] ;; S [.s_allDmCommands]) (S [.s_allDmCommands])] ;;
  [ifc .saveLgs (S [.s_lgsPsfs] ;; sensors [ifc .uplink (G [.s_lgsPsfs, .s_wfss, .w_lgs]) []] ;; G [.s_lgsPsfs] ;; S [.s_lgsPsfs]) (S [.s_lgsPsfs])] ;;
  [ifc .sci [ifc .instPsf (S [.s_sciImgsInst] ;; cameras (G [.s_sciImgsInst])) []] []] ;;
  [ifc .sci [ifc .instField (S [.s_scieFieldInst] ;; cameras (G [.s_scieFieldInst])) []] []]

/-- `Sim.storeData` (simulation.py:804-861). -/
def simStoreData : List I :=
  G [.s_config] ;; [ifa (G [.s_slopes, .s_allSlopes]) []] ;; [ifa (G [.s_dmCommands, .s_allDmCommands]) []] ;;
  [ifc .saveLgs (sensors [ifc .uplink (G [.s_wfss, .w_lgs, .w_lgs_psf, .s_lgsPsfs]) []]) []] ;;
  [ifc .sci (
    cameras (G [.s_sciCams, .p_instStrehl, .s_instStrehl] ;; G [.p_longExpStrehl, .s_longStrehl] ;; run .p_calc_wavefronterror ;; G [.s_WFE]) ;;
    [ifc .sciRes (cameras (G [.s_sciCams, .p_residual, .s_sciPhase])) []]) []] ;;
  [ifc .named [ifa (sensors (G [.s_path, .s_wfss, .w_wfsDetectorPlane, .c_saveHeader])) []] []] ;;
  [ifc .sci [ifc .instPsf (cameras (G [.s_sciCams, .p_detector, .s_sciImgsInst])) []] []] ;;
  [ifc .sci [ifc .instField (cameras (G [.s_sciCams, .p_focalPlane_efield, .s_scieFieldInst, .s_iters])) []] []]

/-- `Sim.saveData` (simulation.py:864-973). -/
def simSaveData : List I :=
  G [.s_config] ;; cameras (G [.s_sciCams, .p_fov, .p_nx_pixels, .s_sciImgs, .s_ee50d]) ;;
  [ifc .named (
    [ifa (G [.s_path, .s_allSlopes, .c_saveHeader]) []] ;; [ifa (G [.s_path, .s_allDmCommands, .c_saveHeader]) []] ;; [ifc .saveLgs (G [.s_path, .s_lgsPsfs, .c_saveHeader]) []] ;;
    [ifc .saveWfe (G [.s_path, .s_WFE, .c_saveHeader]) []] ;; [ifc .saveStrehl (G [.s_path, .s_instStrehl, .c_saveHeader] ;; G [.s_path, .s_longStrehl, .c_saveHeader]) []] ;;
    [ifc .sciRes (cameras (G [.s_path, .s_sciPhase, .c_saveHeader])) []] ;; [ifa (cameras (G [.s_path, .s_sciImgs, .c_saveHeader])) []] ;;
    [ifc .instPsf (cameras (G [.s_path, .s_sciImgsInst, .c_saveHeader])) []] ;; [ifc .instField (cameras (G [.s_path, .s_scieFieldInst, .c_saveHeader])) []] ;;
    [ifa (G [.s_path]) []] ;; [ifa (sensors (G [.s_path, .s_iters, .c_saveHeader])) []]) []]

/-- `Sim.makeSaveHeader` (simulation.py:975-1045). -/
def simMakeSaveHeader : List I :=
  run .s_getTimeStamp ;; S [.s_timeStamp] ;; G [.s_config, .s_time] ;; G [.c_totalActs] ;; mirrors (G [.s_dms, .d_dmConfig]) ;; G [.c_totalWfsData]

/-- `Sim.getTimeStamp` (simulation.py:1048-1057). -/
def simGetTimeStamp : List I := S [.s_time] ;; G [.s_time]

/-- `Sim.printOutput` (simulation.py:1060-1082). -/
def simPrintOutput : List I := G [.s_config] ;; cameras (G [.s_sciCams, .p_instStrehl, .p_longExpStrehl])

/-- `Sim.addToGuiQueue` (simulation.py:1085-1159).  `gui`: `guiQueue` is not `None`. -/
def simAddToGuiQueue : List I :=
  G [.s_guiQueue] ;; [ifc .gui (G [.s_waitingPlot] ;; [ifa (
    G [.s_config] ;;
    sensors (G [.s_wfss, .w_wfsDetectorPlane] ;; [attempt .attribute (G [.s_wfss, .w_uncorrectedPhase]) []] ;; [attempt .attribute (G [.s_wfss, .w_lgs, .w_lgs_psf]) []]) ;;
    mirrors [attempt .attribute (G [.s_dms, .d_dm_shape]) []] ;;
    cameras ([attempt .attribute (G [.s_sciImgs]) []] ;; [attempt .attribute (G [.s_sciCams, .p_detector]) []] ;; [attempt .attribute (G [.s_sciCams, .p_residual]) []]) ;;
    G [.s_guiLock] ;; [attempt .bare (G [.s_guiQueue]) (G [.s_guiLock])] ;; G [.s_guiLock] ;; S [.s_waitingPlot]) []]) []]

/-! ### Mirrors (DM.py) -/

/-- `DM.__init__` (DM.py:77-136). -/
def dmInit : List I :=
  S [.d_soapy_config] ;; S [.d_n_dm] ;; G [.d_soapy_config] ;; S [.d_simConfig] ;; S [.d_config, .d_dmConfig] ;; S [.d_pupil_size, .d_sim_size, .d_scrn_size] ;; G [.d_config] ;; S [.d_altitude, .d_diameter] ;; S [.d_telescope_diameter] ;;
  S [.d_wfss] ;; [ifa (S [.d_mask]) (G [.d_pupil_size, .d_sim_size] ;; S [.d_mask])] ;;
  G [.d_pupil_size, .d_diameter, .d_telescope_diameter] ;; S [.d_nx_dm_elements] ;; G [.d_nx_dm_elements] ;; S [.d_dm_frame] ;; G [.d_scrn_size] ;; S [.d_dm_screen] ;; G [.d_scrn_size, .d_nx_dm_elements] ;; S [.d_screen_coord] ;;
  run .d_getActiveActs ;; S [.d_n_acts] ;; G [.d_n_acts] ;; S [.d_actCoeffs] ;;
  G [.d_dmConfig] ;; [ifc .attached (S [.d_wfss] ;; G [.d_wfss] ;; S [.d_wfs]) (S [.d_wfss])] ;;
  run .d_makeIMatShapes ;; [has .d_iMatShapes (G [.d_iMatShapes, .d_config] ;; S [.d_iMatShapes]) []] ;; G [.d_n_acts] ;; S [.d_priv_valid_actuators]

/-- `DM.getActiveActs` (DM.py:139-146). -/
def dmGetActiveActs : List I := G [.d_dmConfig]

/-- `DM.dmFrame` (DM.py:148-197), without rotation (C15 is about it). -/
def dmFrame : List I :=
  run .d_makeDMFrame ;; S [.d_dm_shape] ;; G [.d_dm_shape] ;; S [.d_dm_shape] ;; G [.d_dmConfig] ;; G [.d_dm_shape, .d_scrn_size] ;;
  [ifa (G [.d_dm_shape] ;; S [.d_dm_screen]) (G [.d_scrn_size, .d_dm_shape, .d_dm_screen])] ;; G [.d_dm_screen]

/-- `DM.makeDMFrame` (DM.py:199-202). -/
def dmMakeDMFrame : List I := G [.d_iMatShapes]

/-- `DM.reset` (DM.py:204-206). -/
def dmReset : List I := G [.d_dm_shape, .d_actCoeffs]

/-- `DM.makeIMatShapes` (DM.py:210-215). -/
def dmMakeIMatShapes : List I := G [.d_n_acts] ;; S [.d_iMatShapes]

/-- `DM.valid_actuators`, read (DM.py:218-219, 516-517). -/
def dmGetValid : List I := G [.d_priv_valid_actuators]

/-- `DM.valid_actuators`, assigned (DM.py:222-228). -/
def dmSetValid : List I := S [.d_priv_valid_actuators] ;; G [.d_priv_valid_actuators] ;; S [.d_n_valid_actuators] ;; G [.d_iMatShapes] ;; S [.d_iMatShapes]

/-- `CustomShapes.makeIMatShapes` (DM.py:237-276). -/
def customMakeIMatShapes : List I := G [.d_config, .d_n_acts, .d_nx_dm_elements, .d_simConfig] ;; S [.d_iMatShapes]

/-- `KarhunenLoeve.makeIMatShapes` (DM.py:284-303): with more than 1000 modes it reads `nacts`. -/
def klMakeIMatShapes : List I := G [.d_soapy_config, .d_n_acts] ;; [ifc .many (G [.d_nacts]) []] ;; G [.d_nx_dm_elements, .d_simConfig] ;; S [.d_iMatShapes]

/-- `Zernike.makeIMatShapes` (DM.py:311-323). -/
def zernikeMakeIMatShapes : List I := G [.d_n_acts, .d_nx_dm_elements, .d_simConfig] ;; S [.d_iMatShapes]

/-- `Piezo.getActiveActs` (DM.py:341-355). -/
def piezoGetActiveActs : List I := G [.d_dmConfig, .d_nx_dm_elements] ;; S [.d_spcing] ;; S [.d_valid_act_coords] ;; S [.d_xActs] ;; G [.d_valid_act_coords]

/-- `Piezo.makeIMatShapes` (DM.py:358-406): with a grid as large as the screen it reads `dm_shape`. -/
def piezoMakeIMatShapes : List I :=
  G [.d_nx_dm_elements, .d_spcing, .d_n_acts, .d_valid_act_coords, .d_xActs, .d_dmConfig, .d_scrn_size] ;; [ifc .equalSize (G [.d_dm_shape] ;; S [.d_dm_screen]) (G [.d_scrn_size])] ;; S [.d_iMatShapes]

/-- `GaussStack.makeIMatShapes` (DM.py:420-444). -/
def gaussMakeIMatShapes : List I := G [.d_n_acts, .d_nx_dm_elements, .d_pupil_size, .d_dmConfig, .d_valid_act_coords] ;; S [.d_iMatShapes] ;; G [.d_simConfig, .d_iMatShapes] ;; S [.d_iMatShapes]

/-- `TT.getActiveActs` (DM.py:455-460). -/
def ttGetActiveActs : List I := S [.d_n_active_actuators] ;; G [.d_n_active_actuators]

/-- `TT.makeIMatShapes` (DM.py:463-479). -/
def ttMakeIMatShapes : List I := G [.d_nx_dm_elements] ;; S [.d_iMatShapes] ;; G [.d_soapy_config] ;; G [.d_iMatShapes] ;; S [.d_iMatShapes]

/-- `FastPiezo.getActiveActs` (DM.py:487-495). -/
def fastGetActiveActs : List I := [call (.sup .FastPiezo) .d_getActiveActs [] []] ;; G [.d_dmConfig] ;; S [.d_actGrid] ;; G [.d_nx_dm_elements, .d_spcing] ;; S [.d_dmSize]

/-- `FastPiezo.makeDMFrame` (DM.py:500-513). -/
def fastMakeDMFrame : List I := G [.d_actGrid, .d_valid_act_coords, .d_config, .d_dmSize, .d_dmConfig]

/-- `FastPiezo.valid_actuators`, assigned (DM.py:520-525). -/
def fastSetValid : List I := S [.d_priv_valid_actuators] ;; G [.d_priv_valid_actuators] ;; S [.d_n_valid_actuators] ;; G [.d_valid_act_coords] ;; S [.d_valid_act_coords]

/-! ### Reconstructors (reconstruction.py) -/

/-- `Reconstructor.__init__` (reconstruction.py:46-102). -/
def recInit : List I :=
  S [.r_soapy_config] ;; S [.r_dms] ;; S [.r_wfss] ;; S [.r_sim_config] ;; S [.r_atmos] ;; S [.r_config] ;; S [.r_n_dms] ;; S [.r_scrn_size] ;; G [.r_sim_config] ;; S [.r_learnIters] ;; S [.r_dmActs, .r_dmConds, .r_dmTypes] ;;
  mirrors (G [.r_dmActs, .r_dms, .d_dmConfig] ;; G [.r_dmConds] ;; G [.r_dmTypes]) ;; G [.r_dmConds] ;; S [.r_dmConds] ;; G [.r_dmActs] ;; S [.r_dmActs] ;;
  S [.r_first_acts] ;; G [.r_dms] ;; mirrors (G [.r_first_acts, .d_n_acts]) ;; S [.r_first_measurements] ;; G [.r_wfss] ;; sensors (G [.r_first_measurements, .w_n_measurements]) ;;
  S [.r_runWfs] ;; G [.r_sim_config] ;; S [.r_moveScrns] ;; S [.r_wfss] ;; G [.c_totalWfsData, .c_totalActs] ;; S [.r_control_matrix] ;; S [.r_controlShape] ;; S [.r_Trecon] ;; run .r_find_closed_actuators ;; S [.r_actuator_values]

/-- `Reconstructor.find_closed_actuators` (reconstruction.py:104-110). -/
def recFindClosed : List I := G [.r_sim_config, .c_totalActs] ;; S [.r_closed_actuators] ;; G [.r_dms] ;; mirrors (G [.d_dmConfig] ;; [ifc .mirrorClosed (G [.d_n_acts, .r_closed_actuators]) []] ;; G [.d_n_acts])

/-- `Reconstructor.saveCMat` (reconstruction.py:112-120). -/
def recSaveCMat : List I := G [.r_sim_config, .r_control_matrix, .c_saveHeader]

/-- `Reconstructor.loadCMat` (reconstruction.py:122-163). -/
def recLoadCMat : List I := G [.r_sim_config] ;; io ;; G [.r_dmConds] ;; io ;; G [.r_dmActs, .r_dmTypes] ;; G [.r_controlShape] ;; io ;; S [.r_control_matrix]

/-- `Reconstructor.save_interaction_matrix` (reconstruction.py:165-192): the header of the shapes is looked for in `self.simConfig`. -/
def recSaveIMat : List I :=
  G [.r_sim_config, .r_interaction_matrix, .c_saveHeader] ;; G [.r_n_dms] ;;
  mirrors (G [.r_sim_config, .r_dms, .d_valid_actuators, .c_saveHeader] ;; [attempt .attribute (G [.r_sim_config, .r_dms, .d_iMatShapes, .r_simConfig]) []])

/-- `Reconstructor.load_interaction_matrix` (reconstruction.py:194-246). -/
def recLoadIMat : List I :=
  G [.r_sim_config] ;; io ;; G [.c_totalActs, .c_totalWfsData] ;; io ;; G [.r_n_dms] ;;
  mirrors (io ;; G [.r_dms] ;; S [.d_valid_actuators] ;; G [.r_dms, .d_n_valid_actuators] ;; [attempt (.only .ioError) ([ifa [raise .ioError] []] ;; G [.r_dms] ;; S [.d_iMatShapes]) []]) ;;
  io ;; S [.r_interaction_matrix]

/-- `Reconstructor.makeIMat` (reconstruction.py:248-265). -/
def recMakeIMat : List I :=
  G [.r_sim_config, .c_totalActs, .c_totalWfsData] ;; S [.r_interaction_matrix] ;; G [.r_dms] ;; mirrors [call .self .r_make_dm_iMat [.callback] []] ;; G [.c_totalWfsData] ;; S [.r_interaction_matrix] ;; G [.r_interaction_matrix]

/-- `Reconstructor.make_dm_iMat` (reconstruction.py:268-345), for a mirror with at least one actuator; `callback` is `Sim.addToGuiQueue`. -/
def recMakeDmIMat : List I :=
  G [.d_n_acts, .r_sim_config, .c_totalWfsData] ;; G [.r_n_dms, .r_scrn_size] ;;
  some1 (G [.d_n_dm] ;; run .d_dmFrame ;; G [.r_wfss] ;; sensors (G [.r_config] ;; G [.w_n_measurements] ;; [call .self .w_frame [] [(.imat, true)]] ;; G [.w_n_measurements] ;; G [.r_config]) ;; run .s_addToGuiQueue ;; G [.d_n_acts]) ;;
  G [.d_n_acts] ;; S [.d_valid_actuators] ;; G [.d_n_dm, .d_n_acts] ;; G [.c_totalWfsData]

/-- `Reconstructor.get_dm_imat` (reconstruction.py:348-365). -/
def recGetDmIMat : List I := G [.r_first_acts, .r_dms, .d_n_acts, .r_wfss, .c_dataStart, .w_n_measurements, .r_interaction_matrix]

/-- `Reconstructor.makeCMat` (reconstruction.py:368-407). -/
def recMakeCMat : List I :=
  let newI := [call .self .r_makeIMat [.callback] []] ;; G [.r_sim_config] ;; [ifc .named (run .r_save_interaction_matrix) []]
  let newC := run .r_calcCMat ;; G [.r_sim_config] ;; [ifc .named (run .r_saveCMat) []]
  [ifc .loadI [attempt .bare (run .r_load_interaction_matrix) newI] newI, ifc .loadC [attempt .bare (run .r_loadCMat) newC] newC]

/-- `Reconstructor.apply_gain` (reconstruction.py:409-428). -/
def recApplyGain : List I := G [.r_dms] ;; mirrors (G [.d_n_valid_actuators, .d_dmConfig] ;; G [.r_new_actuator_values, .r_actuator_values] ;; G [.d_n_valid_actuators])

/-- `Reconstructor.reconstruct` (reconstruction.py:431-442). -/
def recReconstruct : List I :=
  G [.r_actuator_values] ;; [ifa (G [.r_sim_config, .c_totalActs] ;; S [.r_actuator_values]) []] ;; G [.r_control_matrix] ;; S [.r_new_actuator_values] ;; run .r_apply_gain ;; G [.r_Trecon] ;; S [.r_Trecon] ;; G [.r_actuator_values]

/-- `Reconstructor.reset` (reconstruction.py:444-446). -/
def recReset : List I := G [.r_actuator_values]

/-- `MVM.calcCMat` (reconstruction.py:455-465). -/
def mvmCalcCMat : List I := G [.r_config, .r_interaction_matrix] ;; S [.r_control_matrix]

/-- `MVM_SeparateDMs.calcCMat` (reconstruction.py:476-507): a mirror without a sensor of its own has the dictionary of all sensors in `wfss`, whose keys have no `n_measurements`. -/
def sepCalcCMat : List I :=
  G [.r_dms] ;; mirrors (
    G [.d_wfss] ;; [ifc .attached (G [.w_n_measurements]) (G [.w_int_n_measurements])] ;; G [.d_n_acts] ;; G [.d_dmConfig, .r_wfss] ;; run .r_get_dm_imat ;; G [.w_n_measurements] ;; G [.d_dmConfig] ;;
    G [.r_wfss, .c_dataStart, .w_n_measurements, .d_n_acts, .r_control_matrix])

/-- `LearnAndApply.makeIMat` (reconstruction.py:519-523). -/
def laMakeIMat : List I := [call (.sup .LearnAndApply) .r_makeIMat [.callback] []] ;; G [.r_interaction_matrix, .r_wfss, .w_n_subaps] ;; S [.r_interaction_matrix]

/-- `LearnAndApply.saveCMat` (reconstruction.py:525-537). -/
def laSaveCMat : List I := G [.r_sim_config, .r_control_matrix, .c_saveHeader] ;; G [.r_tomoRecon]

/-- `LearnAndApply.loadCMat` (reconstruction.py:539-554). -/
def laLoadCMat : List I := [call (.sup .LearnAndApply) .r_loadCMat [] []] ;; G [.r_sim_config] ;; io ;; G [.r_wfss, .w_n_subaps, .c_totalWfsData] ;; io ;; S [.r_tomoRecon]

/-- `LearnAndApply.initControlMatrix` (reconstruction.py:557-560); nothing calls it. -/
def laInitControlMatrix : List I := G [.r_wfss, .w_n_subaps, .r_sim_config, .c_totalActs] ;; S [.r_controlShape] ;; G [.r_controlShape] ;; S [.r_control_matrix]

/-- `LearnAndApply.learn` (reconstruction.py:563-592): saving the slopes without a `simName` adds a string to `None`. -/
def laLearn : List I :=
  G [.r_learnIters, .r_sim_config, .c_totalWfsData] ;; S [.r_learnSlopes] ;;
  [loop (S [.r_learnIter] ;; G [.r_moveScrns, .r_wfss] ;; sensors (G [.r_wfss, .w_n_measurements] ;; [call .self .w_frame [] [(.imat, false)]] ;; G [.r_learnSlopes]) ;; G [.r_learnIters] ;; run .s_addToGuiQueue)] ;;
  [ifc .saveLearn (G [.r_sim_config] ;; [ifc .named [] [raise .noneType]] ;; G [.r_learnSlopes, .c_saveHeader]) []]

/-- `LearnAndApply.calcCMat` (reconstruction.py:595-627). -/
def laCalcCMat : List I :=
  run .r_learn ;; G [.r_learnSlopes] ;; S [.r_covMat] ;; G [.r_covMat, .r_wfss, .w_n_subaps] ;; S [.r_tomoRecon] ;; [call (.sup .LearnAndApply) .r_calcCMat [] []]

/-- `LearnAndApply.reconstruct` (reconstruction.py:630-657). -/
def laReconstruct : List I :=
  G [.r_tomoRecon, .r_wfss, .w_n_subaps] ;; G [.r_dms, .d_dmConfig] ;; [ifc .ttFirst (G [.r_wfss, .w_n_subaps] ;; G [.r_control_matrix]) [call (.sup .LearnAndApply) .r_reconstruct [] []]]

/-- `LearnAndApplyLTAO.initcontrol_matrix` (reconstruction.py:670-673); nothing calls it. -/
def ltaoInitControlMatrix : List I := G [.r_wfss, .w_activeSubaps, .r_sim_config, .c_totalActs] ;; S [.r_controlShape] ;; G [.r_controlShape] ;; S [.r_control_matrix]

/-- `LearnAndApplyLTAO.calcCMat` (reconstruction.py:676-711). -/
def ltaoCalcCMat : List I :=
  run .r_learn ;; G [.r_learnSlopes] ;; S [.r_covMat] ;; G [.r_covMat, .r_wfss, .c_dataStart] ;; S [.r_tomoRecon] ;; [call (.cls .MVM_SeparateDMs) .r_calcCMat [] []]

/-- `LearnAndApplyLTAO.reconstruct` (reconstruction.py:713-760). -/
def ltaoReconstruct : List I := G [.r_tomoRecon, .r_wfss, .c_dataStart] ;; G [.r_control_matrix]

/-- `GLAO_4LGS.initControlMatrix`, `LgsTT.initControlMatrix` (reconstruction.py:777-781, 896-900); nothing calls them. -/
def glaoInitControlMatrix : List I := G [.r_wfss, .w_activeSubaps, .r_sim_config, .c_totalActs] ;; S [.r_controlShape] ;; G [.r_controlShape] ;; S [.r_controlMatrix]

/-- `GLAO_4LGS.reconstruct` (reconstruction.py:784-802): `super` with another class. -/
def glaoReconstruct : List I := G [.r_wfss, .c_dataStart] ;; G [.w_activeSubaps] ;; run .r_removeCommonTT ;; G [.r_wfss, .c_dataStart] ;; [call (.sup .LgsTT) .r_reconstruct [] []]

/-- `GLAO_4LGS.removeCommonTT`, `LgsTT.removeCommonTT` (reconstruction.py:805-828, 960-983). -/
def glaoRemoveCommonTT : List I := G [.r_wfss, .w_activeSubaps]

/-- `WooferTweeter.calcCMat` (reconstruction.py:841-884): with one mirror it only warns. -/
def wtCalcCMat : List I :=
  G [.r_sim_config] ;; [ifc .oneMirror [] (
    mirrors (G [.r_dms, .d_iMat, .d_dmConfig]) ;; G [.r_control_matrix, .r_dms, .d_n_acts] ;; mirrors (G [.r_dms, .d_iMat, .r_sim_config, .c_totalWfsData, .d_n_acts, .r_control_matrix]))]

/-- `LgsTT.calcCMat` (reconstruction.py:903-932). -/
def lgsttCalcCMat : List I :=
  run .r_learn ;; G [.r_learnSlopes, .r_wfss, .w_activeSubaps] ;; run .r_removeCommonTT ;; G [.r_learnSlopes] ;; S [.r_covMat] ;; G [.r_covMat, .r_wfss, .w_activeSubaps] ;; S [.r_tomoRecon] ;;
  [call (.sup .LgsTT) .r_calcCMat [] []]

/-- `LgsTT.reconstruct` (reconstruction.py:935-957). -/
def lgsttReconstruct : List I := G [.r_wfss, .c_dataStart] ;; run .r_removeCommonTT ;; G [.r_tomoRecon] ;; G [.r_wfss, .c_dataStart] ;; [call (.sup .LgsTT) .r_reconstruct [] []]

/-- `ANN.calcCMat` (reconstruction.py:995-1011). -/
def annCalcCMat : List I :=
  G [.r_wfss, .w_activeSubaps] ;; G [.r_sim_config, .c_totalActs] ;; S [.r_controlShape] ;; S [.r_controlMatrix] ;;
  mirrors (G [.r_dms, .d_iMat] ;; [ifa (G [.m_numpy_inv]) (G [.r_dmConds])] ;; G [.r_dms, .d_n_acts, .r_controlMatrix])

/-- `ANN.reconstruct` (reconstruction.py:1013-1031). -/
def annReconstruct : List I := G [.r_wfss, .w_activeSubaps] ;; G [.r_net] ;; G [.r_controlMatrix] ;; G [.r_Trecon] ;; S [.r_Trecon]

/-! ### Science cameras (scienceinstrument.py) -/

/-- `PSFCamera.__init__` (scienceinstrument.py:46-174). -/
def psfInit : List I :=
  S [.p_soapy_config] ;; G [.p_soapy_config] ;; S [.p_config, .p_sciConfig] ;; S [.p_simConfig] ;; S [.p_sim_size, .p_pupil_size, .p_sim_pad] ;; G [.p_config] ;; S [.p_fov, .p_threads, .p_telescope_diameter, .p_nx_pixels, .p_fov_rad] ;;
  run .p_setMask ;; G [.p_telescope_diameter, .p_fov_rad, .p_config] ;; S [.p_FOVPxlNo] ;; G [.p_pupil_size, .p_FOVPxlNo] ;; S [.p_crop_fov_factor] ;; G [.p_FOVPxlNo, .p_crop_fov_factor] ;; S [.p_fov_crop_elements] ;; S [.p_FOVPxlNo] ;;
  G [.p_FOVPxlNo, .p_sim_size, .p_pupil_size] ;; S [.p_padFOVPxlNo] ;; [ifa (G [.p_padFOVPxlNo] ;; S [.p_padFOVPxlNo]) []] ;; G [.p_padFOVPxlNo, .p_FOVPxlNo] ;; S [.p_fov_sim_pad] ;;
  [ifc .up (G [.p_mask]) []] ;; G [.p_config, .p_soapy_config] ;; S [.p_los] ;; [ifc .phys (G [.p_telescope_diameter, .p_FOVPxlNo, .p_los, .p_padFOVPxlNo]) []] ;;
  G [.p_simConfig, .p_mask, .p_FOVPxlNo] ;; S [.p_scaledMask] ;; G [.p_nx_pixels, .p_config] ;; S [.p_FFTPadding] ;; [ifa (some1 (G [.p_FFTPadding, .p_FOVPxlNo, .p_config, .p_nx_pixels] ;; S [.p_FFTPadding])) []] ;;
  G [.p_FFTPadding, .p_crop_fov_factor] ;; S [.p_fft_crop_elements] ;; S [.p_FFTPadding] ;; G [.p_FFTPadding] ;; S [.p_fft_input_data] ;; S [.p_fft_output_data] ;; G [.p_fft_input_data, .p_fft_output_data, .p_threads, .p_config] ;; S [.p_fft_calculator] ;;
  G [.p_sciConfig] ;; S [.p_phsNm2Rad] ;; G [.p_sim_pad, .p_pupil_size, .p_FOVPxlNo] ;; S [.p_interp_coords] ;; G [.p_interp_coords, .p_los] ;; S [.p_interp_coords] ;; S [.p_interp_phase] ;; S [.p_focus_efield] ;; S [.p_focus_intensity] ;;
  G [.p_nx_pixels] ;; S [.p_detector] ;; G [.p_detector] ;; S [.p_long_exp_image] ;; S [.p_priv_long_exp_image] ;;
  G [.p_los] ;; run .p_calcFocalPlane ;; G [.p_detector] ;; S [.p_bestPSF] ;; G [.p_bestPSF] ;; S [.p_psfMax] ;; S [.p_longExpStrehl] ;; S [.p_instStrehl] ;; run .p_reset

/-- `PSFCamera.reset` (scienceinstrument.py:177-185). -/
def psfReset : List I := S [.p_longExpStrehl] ;; S [.p_instStrehl] ;; G [.p_priv_long_exp_image, .p_long_exp_image, .p_detector, .p_focus_intensity, .p_focus_efield, .p_interp_phase]

/-- `PSFCamera.setMask` (scienceinstrument.py:188-201). -/
def psfSetMask : List I := [ifa (S [.p_mask]) (G [.p_pupil_size, .p_sim_size] ;; S [.p_mask])]

/-- `PSFCamera.calcFocalPlane` (scienceinstrument.py:204-273). -/
def psfCalcFocalPlane : List I :=
  G [.p_config] ;; [ifc .phys (G [.p_los, .p_fov_sim_pad] ;; S [.p_EField_fov]) (G [.p_los, .p_mask] ;; S [.p_residual] ;; G [.p_los, .p_interp_coords, .p_interp_phase] ;; S [.p_EField_fov])] ;;
  [ifc .up [] (G [.p_EField_fov, .p_scaledMask] ;; S [.p_EField_fov])] ;; G [.p_fft_input_data, .p_FFTPadding, .p_FOVPxlNo, .p_EField_fov] ;; G [.p_fft_calculator, .p_fft_output_data] ;;
  G [.p_fft_crop_elements] ;; [ifa (G [.p_fft_output_data, .p_fft_crop_elements] ;; S [.p_fov_focus_efield]) (G [.p_fft_output_data] ;; S [.p_fov_focus_efield])] ;;
  G [.p_fov_focus_efield, .p_focus_intensity] ;; G [.p_config, .p_detector] ;; G [.p_priv_long_exp_image, .p_detector] ;; S [.p_priv_long_exp_image] ;; G [.p_detector] ;; S [.p_detector] ;; G [.p_priv_long_exp_image] ;; S [.p_long_exp_image]

/-- `PSFCamera.calcInstStrehl` (scienceinstrument.py:276-285). -/
def psfCalcInstStrehl : List I := G [.p_sciConfig, .p_detector, .p_psfMax] ;; S [.p_instStrehl] ;; G [.p_long_exp_image, .p_psfMax] ;; S [.p_longExpStrehl]

/-- `PSFCamera.calc_wavefronterror` (scienceinstrument.py:288-308). -/
def psfCalcWfe : List I := G [.p_config] ;; [ifc .phys [] (G [.p_los, .p_mask])]

/-- `PSFCamera.frame` (scienceinstrument.py:311-327). -/
def psfFrame : List I := G [.p_los] ;; run .p_calcFocalPlane ;; run .p_calcInstStrehl ;; G [.p_detector]

/-- `singleModeFibre.__init__` (scienceinstrument.py:332-339). -/
def fibreInit : List I :=
  [call (.cls .PSFCamera) .p_init [] []] ;; G [.p_mask] ;; S [.p_normMask] ;; G [.p_sim_size] ;; run .p_refCouplingLoss ;; S [.p_fibreSize] ;; G [.p_fibreSize] ;; run .p_refCouplingLoss ;; S [.p_refStrehl] ;;
  G [.p_fibreSize] ;; run .p_fibreEfield ;; S [.p_fibre_efield] ;; G [.p_refStrehl]

/-- `singleModeFibre.fibreEfield` (scienceinstrument.py:342-345). -/
def fibreEfield : List I := G [.p_sim_size]

/-- `singleModeFibre.refCouplingLoss` (scienceinstrument.py:348-349). -/
def fibreRefLoss : List I := run .p_fibreEfield ;; G [.p_normMask]

/-- `singleModeFibre.calcInstStrehl` (scienceinstrument.py:352-353). -/
def fibreCalcInstStrehl : List I := G [.p_fibre_efield, .p_los, .p_normMask] ;; S [.p_instStrehl]

/-! ### Classes -/

/-- Methods of `Sim` (simulation.py:100-1159). -/
def simMethods : Meth → Option (Method Cls Att Meth Glob Kw Cond Exc)
  | .s_init => some ⟨[], [], simInit⟩
  | .s_readParams => some ⟨[], [], simReadParams⟩
  | .s_aoinit => some ⟨[], [], simAoinit⟩
  | .s_makeIMat => some ⟨[], [], simMakeIMat⟩
  | .s_runWfs_noMP => some ⟨[.scrns, .dmShape, .wfsList, .loopIter], [(.scr, false), (.iter, false)], simRunWfs⟩
  | .s_runWfs_MP => some ⟨[.scrns, .dmShape, .wfsList, .loopIter], [(.scr, false), (.iter, false)], simRunWfsMP⟩
  | .s_runDM => some ⟨[.closed], [(.closed, true)], simRunDM⟩
  | .s_runSciCams => some ⟨[], [], simRunSciCams⟩
  | .s_loopFrame => some ⟨[], [], simLoopFrame⟩
  | .s_aoloop => some ⟨[], [], simAoloop⟩
  | .s_start => some ⟨[], [], simStart⟩
  | .s_stop => some ⟨[], [], simStop⟩
  | .s_thread => some ⟨[], [], simThread⟩
  | .s_reset_loop => some ⟨[], [], simResetLoop⟩
  | .s_finishUp => some ⟨[], [], simFinishUp⟩
  | .s_initSaveData => some ⟨[], [], simInitSaveData⟩
  | .s_storeData => some ⟨[], [], simStoreData⟩
  | .s_saveData => some ⟨[], [], simSaveData⟩
  | .s_makeSaveHeader => some ⟨[], [], simMakeSaveHeader⟩
  | .s_getTimeStamp => some ⟨[], [], simGetTimeStamp⟩
  | .s_printOutput => some ⟨[.strehl], [], simPrintOutput⟩
  | .s_addToGuiQueue => some ⟨[], [], simAddToGuiQueue⟩
  | .w_init => some ⟨[], [], wfsInit⟩
  | .w_frame => some ⟨[], [], wfsFrame⟩
  | _ => none

/-- Methods of `DM` (DM.py:62-228). -/
def dMMethods : Meth → Option (Method Cls Att Meth Glob Kw Cond Exc)
  | .d_init => some ⟨[], [], dmInit⟩
  | .d_getActiveActs => some ⟨[], [], dmGetActiveActs⟩
  | .d_dmFrame => some ⟨[], [], dmFrame⟩
  | .d_makeDMFrame => some ⟨[], [], dmMakeDMFrame⟩
  | .d_reset => some ⟨[], [], dmReset⟩
  | .d_makeIMatShapes => some ⟨[], [], dmMakeIMatShapes⟩
  | .d_getValid => some ⟨[], [], dmGetValid⟩
  | .d_setValid => some ⟨[], [], dmSetValid⟩
  | _ => none

/-- Methods of `CustomShapes` (DM.py:231-276). -/
def customShapesMethods : Meth → Option (Method Cls Att Meth Glob Kw Cond Exc)
  | .d_makeIMatShapes => some ⟨[], [], customMakeIMatShapes⟩
  | _ => none

/-- Methods of `KarhunenLoeve` (DM.py:279-303). -/
def karhunenLoeveMethods : Meth → Option (Method Cls Att Meth Glob Kw Cond Exc)
  | .d_makeIMatShapes => some ⟨[], [], klMakeIMatShapes⟩
  | _ => none

/-- Methods of `Zernike` (DM.py:306-323). -/
def zernikeMethods : Meth → Option (Method Cls Att Meth Glob Kw Cond Exc)
  | .d_makeIMatShapes => some ⟨[], [], zernikeMakeIMatShapes⟩
  | _ => none

/-- Methods of `Piezo` (DM.py:326-406). -/
def piezoMethods : Meth → Option (Method Cls Att Meth Glob Kw Cond Exc)
  | .d_getActiveActs => some ⟨[], [], piezoGetActiveActs⟩
  | .d_makeIMatShapes => some ⟨[], [], piezoMakeIMatShapes⟩
  | _ => none

/-- Methods of `GaussStack` (DM.py:411-444). -/
def gaussStackMethods : Meth → Option (Method Cls Att Meth Glob Kw Cond Exc)
  | .d_makeIMatShapes => some ⟨[], [], gaussMakeIMatShapes⟩
  | _ => none

/-- Methods of `TT` (DM.py:446-479). -/
def tTMethods : Meth → Option (Method Cls Att Meth Glob Kw Cond Exc)
  | .d_getActiveActs => some ⟨[], [], ttGetActiveActs⟩
  | .d_makeIMatShapes => some ⟨[], [], ttMakeIMatShapes⟩
  | _ => none

/-- Methods of `FastPiezo` (DM.py:482-525). -/
def fastPiezoMethods : Meth → Option (Method Cls Att Meth Glob Kw Cond Exc)
  | .d_getActiveActs => some ⟨[], [], fastGetActiveActs⟩
  | .d_makeIMatShapes => some ⟨[], [], []⟩
  | .d_makeDMFrame => some ⟨[], [], fastMakeDMFrame⟩
  | .d_getValid => some ⟨[], [], dmGetValid⟩
  | .d_setValid => some ⟨[], [], fastSetValid⟩
  | _ => none

/-- Methods of `Reconstructor` (reconstruction.py:42-446). -/
def reconstructorMethods : Meth → Option (Method Cls Att Meth Glob Kw Cond Exc)
  | .r_init => some ⟨[], [], recInit⟩
  | .r_find_closed_actuators => some ⟨[], [], recFindClosed⟩
  | .r_saveCMat => some ⟨[], [], recSaveCMat⟩
  | .r_loadCMat => some ⟨[], [], recLoadCMat⟩
  | .r_save_interaction_matrix => some ⟨[], [], recSaveIMat⟩
  | .r_load_interaction_matrix => some ⟨[], [], recLoadIMat⟩
  | .r_makeIMat => some ⟨[.callback], [], recMakeIMat⟩
  | .r_make_dm_iMat => some ⟨[.callback], [], recMakeDmIMat⟩
  | .r_get_dm_imat => some ⟨[], [], recGetDmIMat⟩
  | .r_makeCMat => some ⟨[.loadIMat, .loadCMat, .callback, .progressCallback], [(.loadI, true), (.loadC, true)], recMakeCMat⟩
  | .r_apply_gain => some ⟨[], [], recApplyGain⟩
  | .r_reconstruct => some ⟨[], [], recReconstruct⟩
  | .r_reset => some ⟨[], [], recReset⟩
  | _ => none

/-- Methods of `MVM` (reconstruction.py:449-465). -/
def mVMMethods : Meth → Option (Method Cls Att Meth Glob Kw Cond Exc)
  | .r_calcCMat => some ⟨[], [], mvmCalcCMat⟩
  | _ => none

/-- Methods of `MVM_SeparateDMs` (reconstruction.py:468-507). -/
def mVMSeparateDMsMethods : Meth → Option (Method Cls Att Meth Glob Kw Cond Exc)
  | .r_calcCMat => some ⟨[], [], sepCalcCMat⟩
  | _ => none

/-- Methods of `LearnAndApply` (reconstruction.py:510-657). -/
def learnAndApplyMethods : Meth → Option (Method Cls Att Meth Glob Kw Cond Exc)
  | .r_makeIMat => some ⟨[.callback], [], laMakeIMat⟩
  | .r_saveCMat => some ⟨[], [], laSaveCMat⟩
  | .r_loadCMat => some ⟨[], [], laLoadCMat⟩
  | .r_initControlMatrix => some ⟨[], [], laInitControlMatrix⟩
  | .r_learn => some ⟨[], [], laLearn⟩
  | .r_calcCMat => some ⟨[], [], laCalcCMat⟩
  | .r_reconstruct => some ⟨[], [], laReconstruct⟩
  | _ => none

/-- Methods of `LearnAndApplyLTAO` (reconstruction.py:660-760). -/
def learnAndApplyLTAOMethods : Meth → Option (Method Cls Att Meth Glob Kw Cond Exc)
  | .r_initcontrol_matrix => some ⟨[], [], ltaoInitControlMatrix⟩
  | .r_calcCMat => some ⟨[], [], ltaoCalcCMat⟩
  | .r_reconstruct => some ⟨[], [], ltaoReconstruct⟩
  | _ => none

/-- Methods of `GLAO_4LGS` (reconstruction.py:767-828). -/
def gLAO4LGSMethods : Meth → Option (Method Cls Att Meth Glob Kw Cond Exc)
  | .r_initControlMatrix => some ⟨[], [], glaoInitControlMatrix⟩
  | .r_reconstruct => some ⟨[], [], glaoReconstruct⟩
  | .r_removeCommonTT => some ⟨[], [], glaoRemoveCommonTT⟩
  | _ => none

/-- Methods of `WooferTweeter` (reconstruction.py:830-884). -/
def wooferTweeterMethods : Meth → Option (Method Cls Att Meth Glob Kw Cond Exc)
  | .r_calcCMat => some ⟨[], [], wtCalcCMat⟩
  | _ => none

/-- Methods of `LgsTT` (reconstruction.py:887-983). -/
def lgsTTMethods : Meth → Option (Method Cls Att Meth Glob Kw Cond Exc)
  | .r_initControlMatrix => some ⟨[], [], glaoInitControlMatrix⟩
  | .r_calcCMat => some ⟨[], [], lgsttCalcCMat⟩
  | .r_reconstruct => some ⟨[], [], lgsttReconstruct⟩
  | .r_removeCommonTT => some ⟨[], [], glaoRemoveCommonTT⟩
  | _ => none

/-- Methods of `ANN` (reconstruction.py:985-1031). -/
def aNNMethods : Meth → Option (Method Cls Att Meth Glob Kw Cond Exc)
  | .r_calcCMat => some ⟨[], [], annCalcCMat⟩
  | .r_reconstruct => some ⟨[], [], annReconstruct⟩
  | _ => none

/-- Methods of `PSFCamera` (scienceinstrument.py:37-327). -/
def pSFCameraMethods : Meth → Option (Method Cls Att Meth Glob Kw Cond Exc)
  | .p_init => some ⟨[], [], psfInit⟩
  | .p_reset => some ⟨[], [], psfReset⟩
  | .p_setMask => some ⟨[], [], psfSetMask⟩
  | .p_calcFocalPlane => some ⟨[], [], psfCalcFocalPlane⟩
  | .p_calcInstStrehl => some ⟨[], [], psfCalcInstStrehl⟩
  | .p_calc_wavefronterror => some ⟨[], [], psfCalcWfe⟩
  | .p_frame => some ⟨[], [], psfFrame⟩
  | _ => none

/-- Methods of `singleModeFibre` (scienceinstrument.py:330-353). -/
def singleModeFibreMethods : Meth → Option (Method Cls Att Meth Glob Kw Cond Exc)
  | .p_init => some ⟨[], [], fibreInit⟩
  | .p_fibreEfield => some ⟨[], [], fibreEfield⟩
  | .p_refCouplingLoss => some ⟨[], [], fibreRefLoss⟩
  | .p_calcInstStrehl => some ⟨[], [], fibreCalcInstStrehl⟩
  | _ => none

/-- Methods of every class. -/
def methods : Cls → Meth → Option (Method Cls Att Meth Glob Kw Cond Exc)
  | .Sim => simMethods
  | .DM => dMMethods
  | .CustomShapes => customShapesMethods
  | .KarhunenLoeve => karhunenLoeveMethods
  | .Zernike => zernikeMethods
  | .Piezo => piezoMethods
  | .GaussStack => gaussStackMethods
  | .TT => tTMethods
  | .FastPiezo => fastPiezoMethods
  | .Reconstructor => reconstructorMethods
  | .MVM => mVMMethods
  | .MVM_SeparateDMs => mVMSeparateDMsMethods
  | .LearnAndApply => learnAndApplyMethods
  | .LearnAndApplyLTAO => learnAndApplyLTAOMethods
  | .GLAO_4LGS => gLAO4LGSMethods
  | .WooferTweeter => wooferTweeterMethods
  | .LgsTT => lgsTTMethods
  | .ANN => aNNMethods
  | .PSFCamera => pSFCameraMethods
  | .singleModeFibre => singleModeFibreMethods

/-- The source. -/
def source : Source Cls Att Meth Glob Kw Cond Exc where
  methods := methods
  setter := fun a => if a = .d_valid_actuators then some .d_setValid else none
  getter := fun a => if a = .d_valid_actuators then some .d_getValid else none
  defined := fun _ => true

/-- Base classes, in the order in which Python looks (DM.py; reconstruction.py; scienceinstrument.py). -/
def mro : Cls → List Cls
  | .CustomShapes => [.CustomShapes, .DM]
  | .KarhunenLoeve => [.KarhunenLoeve, .DM]
  | .Zernike => [.Zernike, .DM]
  | .Piezo => [.Piezo, .DM]
  | .GaussStack => [.GaussStack, .Piezo, .DM]
  | .TT => [.TT, .DM]
  | .FastPiezo => [.FastPiezo, .Piezo, .DM]
  | .MVM => [.MVM, .Reconstructor]
  | .MVM_SeparateDMs => [.MVM_SeparateDMs, .Reconstructor]
  | .LearnAndApply => [.LearnAndApply, .MVM, .Reconstructor]
  | .LearnAndApplyLTAO => [.LearnAndApplyLTAO, .LearnAndApply, .MVM, .MVM_SeparateDMs, .Reconstructor]
  | .GLAO_4LGS => [.GLAO_4LGS, .MVM, .Reconstructor]
  | .WooferTweeter => [.WooferTweeter, .Reconstructor]
  | .LgsTT => [.LgsTT, .LearnAndApply, .MVM, .Reconstructor]
  | .ANN => [.ANN, .Reconstructor]
  | .singleModeFibre => [.singleModeFibre, .PSFCamera]
  | c => [c]

/-- A configuration: the types, and the conditions. -/
structure Cfg where
  mirror : Cls
  recon : Cls
  camera : Cls
  env : Env Cond

/-- The chain of classes of the whole simulation; names of methods are not shared between kinds of objects. -/
def Cfg.chain (cfg : Cfg) : List Cls := [.Sim] ++ mro cfg.recon ++ mro cfg.mirror ++ mro cfg.camera

/-- `Sim(…)`, `aoinit()` and `makeIMat(forceNew)`; the GUI introduces itself before `aoinit` (gui/gui.py:248-251). -/
def start (forceNew : Bool) : List I := run .s_init ;; [ifc .gui (S [.s_guiQueue, .s_guiLock, .s_gui, .s_waitingPlot]) []] ;; run .s_aoinit ;; [call .self .s_makeIMat [] [(.forceNew, forceNew)]]

/-- Uses of a simulation after that. -/
inductive Use
  /-- `loopFrame()` -/
  | frame
  /-- `aoloop()` -/
  | aoloop
  /-- `start_aoloop_thread()`, any number of frames, `stop_aoloop_thread()` -/
  | thread
  /-- `reset_loop()` -/
  | reset
  /-- `loopFrame()` and `reset_loop()` -/
  | frameReset
  /-- `makeIMat(forceNew)` -/
  | makeIMat (forceNew : Bool)
  /-- `aoinit()` and `makeIMat(forceNew)` -/
  | again (forceNew : Bool)
  /-- `runWfs(scrns)` -/
  | runWfs
  /-- `saveData()` and `finishUp()` -/
  | save
  deriving DecidableEq

/-- The statements of a use. -/
def Use.code : Use → List I
  | .frame => run .s_loopFrame
  | .aoloop => run .s_aoloop
  | .thread => run .s_start ;; run .s_thread ;; run .s_stop
  | .reset => run .s_reset_loop
  | .frameReset => run .s_loopFrame ;; run .s_reset_loop
  | .makeIMat f => [call .self .s_makeIMat [] [(.forceNew, f)]]
  | .again f => run .s_aoinit ;; [call .self .s_makeIMat [] [(.forceNew, f)]]
  | .runWfs => G [.s_runWfs] ;; [ifc .mp [call .self .s_runWfs_MP [.scrns] [(.scr, true)]] [call .self .s_runWfs_noMP [.scrns] [(.scr, true)]]]
  | .save => run .s_saveData ;; run .s_finishUp

/-- What can happen to a simulation that is made, calibrated and used like this. -/
def Story (cfg : Cfg) (forceNew : Bool) (us : List Use) (res : Res Att Meth Glob Exc) : Prop := Life source cfg.chain cfg.env (start forceNew) Use.code us res

end Soapy.Sys
