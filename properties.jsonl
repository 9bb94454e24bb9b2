{"id": "C01", "title": "Loop delay of d frames is exactly d frames", "statement": "With a constant loopDelay d, the commands sent to the mirrors on call n (counting from 0) of the delay buffer are all-zero when n < d and otherwise exactly the commands handed in at call n-d; nothing is lost, duplicated or reordered.", "quantifier": "for every command type, every finite sequence of command vectors and every constant delay d >= 0", "why_tests_cant": "a unit test tries one delay and a few frames; the law must hold after every history of calls", "anchors": ["soapy/simulation.py:DelayBuffer.delay", "soapy/simulation.py:Sim.loopFrame"]}
{"id": "C02", "title": "Delay buffer under a changing delay never replays or reorders commands", "statement": "If the requested delay changes between calls, each output is either zero or a command handed in at most at this call; the ages are such that no command is ever emitted twice, the order of emission is the order of insertion, right after a call with delay d at most d commands are pending, and a non-zero output on a call with delay d is exactly the command handed in d calls ago when the buffer holds it.", "quantifier": "for every sequence of (command, delay) calls", "why_tests_cant": "the set of delay histories is infinite; tests use a constant delay", "anchors": ["soapy/simulation.py:DelayBuffer.delay"]}
{"id": "C03", "title": "In-place command updates cannot corrupt delayed commands", "statement": "In the loop the same command array object is overwritten in place every frame, pushed in the delay buffer and replaced by the array that comes out. No array that is still waiting in the buffer is ever overwritten, so aliasing never changes what emerges later.", "quantifier": "for every number of frames, every delay history and every sequence of reconstructed commands", "why_tests_cant": "aliasing corruption depends on history and object identity; a test with one delay value cannot exclude it", "anchors": ["soapy/simulation.py:Sim.loopFrame", "soapy/simulation.py:DelayBuffer.delay"]}
{"id": "C04", "title": "reset_loop gives a clean start of the command pipeline", "statement": "After reset_loop the mirrors must not receive commands computed before the reset: the first loopDelay frames get zeros.", "quantifier": "for every history before the reset and every delay", "why_tests_cant": "the effect needs a history before the reset and a delay > 0", "anchors": ["soapy/simulation.py:Sim.reset_loop", "soapy/simulation.py:DelayBuffer"]}
{"id": "C05", "title": "Sensor read-out cadence follows the exposure time", "statement": "A sensor with exposure time E >= loop time T is read out during frame n exactly when floor((n+1)T/E) > floor(nT/E), so after n frames it has been read exactly floor(nT/E) times and never twice in one exposure; with E <= T it is read every frame.", "quantifier": "for every number of frames, every T > 0 and every E", "why_tests_cant": "infinitely many ratios E/T and frame counts, including non-commensurate ones", "anchors": ["soapy/simulation.py:Sim.runWfs_noMP"]}
{"id": "C06", "title": "Read-out cadence restarts after reset_loop", "statement": "After reset_loop the sensors integrate for a full exposure time again, exactly as in a fresh simulation.", "quantifier": "for every number of frames run before the reset", "why_tests_cant": "requires long histories before the reset and exposure time longer than the loop time", "anchors": ["soapy/simulation.py:Sim.reset_loop", "soapy/simulation.py:Sim.runWfs_noMP"]}
{"id": "C07", "title": "Multi-process and single-process sensor scheduling agree", "statement": "The decision to read a sensor in a frame is the same whether the sensors are run in separate processes or in one process.", "quantifier": "for every frame number and every exposure time", "why_tests_cant": "needs equality for all frames and ratios", "anchors": ["soapy/simulation.py:Sim.runWfs_MP", "soapy/simulation.py:Sim.runWfs_noMP"]}
{"id": "C08", "title": "An exposure contains every frame exactly once", "statement": "For a Shack-Hartmann sensor without uplink the image formed at a read-out is the sum of the instantaneous focal planes of all frames since the previous read-out, each counted once, and no light leaks into the next exposure. Frames that are not read return all-zero measurements.", "quantifier": "for every sequence of frames with arbitrary read flags", "why_tests_cant": "every interleaving of read/no-read frames", "anchors": ["soapy/wfs/wfs.py:WFS.frame", "soapy/wfs/wfs.py:WFS.zeroData", "soapy/wfs/shackhartmann.py:ShackHartmann.integrateDetectorPlane", "soapy/wfs/shackhartmann.py:ShackHartmann.readDetectorPlane"]}
{"id": "C09", "title": "Measurement vector layout", "statement": "Measurements of sensor k occupy one contiguous block, blocks are disjoint, ordered, cover the whole vector, and running the sensors fills every entry with the value of its own sensor.", "quantifier": "for every number of sensors with arbitrary measurement counts", "why_tests_cant": "any number/size of sensors", "anchors": ["soapy/simulation.py:Sim.aoinit", "soapy/simulation.py:Sim.runWfs_noMP"]}
{"id": "C10", "title": "Closed-loop mirrors integrate, open-loop mirrors low-pass", "statement": "A closed-loop mirror's command after n frames is the sum of gain times each reconstructed update; an open-loop mirror's command is the exponentially weighted average, and for 0 <= gain <= 1 stays inside any interval containing 0 and all the updates.", "quantifier": "for every sequence of updates and every gain", "why_tests_cant": "law over unbounded update histories", "anchors": ["soapy/reconstruction.py:Reconstructor.apply_gain", "soapy/reconstruction.py:Reconstructor.reconstruct"]}
{"id": "C11", "title": "Gain and control mode apply mirror by mirror", "statement": "Each mirror's gain and open/closed mode act on exactly its own block of the command vector: the new command of actuator j of mirror k depends only on mirror k's configuration, its previous command and its own update.", "quantifier": "for every mirror list and every command vector", "why_tests_cant": "needs all block layouts", "anchors": ["soapy/reconstruction.py:Reconstructor.apply_gain"]}
{"id": "C12", "title": "No measurement, no motion", "statement": "On frames without sensor read-out a linear reconstructor leaves closed-loop mirror commands unchanged, while an open-loop mirror's command shrinks by the factor (1-gain).", "quantifier": "for every state, every gain and every number of unread frames", "why_tests_cant": "arbitrary run lengths", "anchors": ["soapy/reconstruction.py:Reconstructor.reconstruct", "soapy/wfs/wfs.py:WFS.frame"]}
{"id": "C13", "title": "Mirror surface is the superposition of its actuator shapes", "statement": "The mirror surface is linear in the commands, zero commands give a flat surface, and the corrected screen returned has zero mean (no piston).", "quantifier": "for every set of actuator shapes and commands", "why_tests_cant": "algebraic identity over all inputs", "anchors": ["soapy/DM.py:DM.dmFrame", "soapy/DM.py:DM.makeDMFrame"]}
{"id": "C14", "title": "Commands stay attached to the right actuator after dropping dead actuators", "statement": "After dead actuators are removed from the interaction matrix, entry k of the command vector, row k of the interaction matrix and the k-th remaining actuator shape all refer to the same physical actuator, and the surviving actuators keep their order.", "quantifier": "for every interaction matrix and every threshold outcome", "why_tests_cant": "for all patterns of dropped actuators", "anchors": ["soapy/reconstruction.py:Reconstructor.make_dm_iMat", "soapy/DM.py:DM.valid_actuators", "soapy/simulation.py:Sim.makeIMat"]}
{"id": "C15", "title": "Mirror output always has the size of the phase screen", "statement": "The mirror returns a surface of exactly the screen size whatever the mirror size.", "quantifier": "for every mirror size and screen size", "why_tests_cant": "parity and rounding corner cases", "anchors": ["soapy/DM.py:DM.dmFrame"]}
{"id": "C16", "title": "Sensors see closed-loop mirrors only, the science camera sees every mirror once", "statement": "With fixed configuration, in each frame the sensors see the current surfaces of the closed-loop mirrors only, and the science camera the current surface of each mirror exactly once.", "quantifier": "for every mirror list with any mix of modes and any number of frames", "why_tests_cant": "holds across frames; stale buffers only show up over time", "anchors": ["soapy/simulation.py:Sim.runDM", "soapy/simulation.py:Sim.loopFrame"]}
{"id": "C17", "title": "Causality of the control loop", "statement": "The mirror commands applied in frame n depend only on measurements of frames before n; the first frame uses zero measurements.", "quantifier": "for every pair of runs whose measurements agree before frame n", "why_tests_cant": "relational property over all runs", "anchors": ["soapy/simulation.py:Sim.loopFrame"]}
{"id": "C18", "title": "Recorded history is the last nIters frames", "statement": "With iteration storage of N frames, after any number of frames row j of a saved history holds the data of the latest frame whose number is congruent to j modulo N; when not more than N frames have been run, row j is frame j and the rest is zero.", "quantifier": "for every number of frames and every N >= 1", "why_tests_cant": "wrap-around for arbitrary run lengths", "anchors": ["soapy/simulation.py:Sim.storeData", "soapy/simulation.py:Sim.loopFrame"]}
{"id": "C19", "title": "Final summary reports the last frame", "statement": "The long-exposure figures printed at the end of a run are those stored for the last completed frame, for every number of frames completed.", "quantifier": "for every number of completed frames >= 1 and every N", "why_tests_cant": "negative-index corner case at wrap-around", "anchors": ["soapy/simulation.py:Sim.finishUp", "soapy/simulation.py:Sim.storeData"]}
{"id": "C20", "title": "Interaction matrix survives a save/load round trip", "statement": "Loading a saved interaction matrix in a fresh simulation with the same configuration restores the same matrix and the same set of active actuators of every mirror.", "quantifier": "for every interaction matrix and set of dropped actuators", "why_tests_cant": "all matrices and actuator patterns", "anchors": ["soapy/reconstruction.py:Reconstructor.save_interaction_matrix", "soapy/reconstruction.py:Reconstructor.load_interaction_matrix"]}
{"id": "C21", "title": "A mismatching saved interaction matrix is rejected without side effects", "statement": "If the saved matrix does not match the configured number of actuators or measurements, loading fails, and the simulation rebuilds it as if no file existed.", "quantifier": "for every file content and configuration", "why_tests_cant": "all contents of the files, including partial writes", "anchors": ["soapy/reconstruction.py:Reconstructor.load_interaction_matrix", "soapy/reconstruction.py:Reconstructor.makeIMat"]}
{"id": "C22", "title": "A crash while saving cannot make a later run use a mixed matrix", "statement": "If the process dies at any point while saving the interaction matrix, a later run in the same directory either loads the complete matrix or rebuilds it.", "quantifier": "for every crash point of the save sequence and every previous content of the directory", "why_tests_cant": "all crash points and all earlier directory contents", "anchors": ["soapy/reconstruction.py:Reconstructor.save_interaction_matrix", "soapy/reconstruction.py:Reconstructor.load_interaction_matrix"]}
{"id": "C23", "title": "A saved command matrix is reused only for the configuration it was made for", "statement": "A command matrix is loaded only if its size is that of the current system.", "quantifier": "for every saved matrix and every system", "why_tests_cant": "all size combinations including dropped actuators", "anchors": ["soapy/reconstruction.py:Reconstructor.loadCMat", "soapy/reconstruction.py:Reconstructor.makeCMat"]}
{"id": "C24", "title": "Atmosphere window never leaves the screen", "statement": "For finite phase screens, in every frame and for every wind velocity the sampled window lies completely inside the stored screen.", "quantifier": "for every wind velocity, screen size >= window and every number of frames", "why_tests_cant": "unbounded frame counts and fractional velocities", "anchors": ["soapy/atmosphere.py:atmos.moveScrns"]}
{"id": "C25", "title": "Frozen flow", "statement": "The turbulence moves over the telescope at exactly the wind velocity: the phase at pixel x in frame n is the (periodically continued) initial screen at x shifted by n times the per-frame displacement.", "quantifier": "for every number of frames and every velocity", "why_tests_cant": "unbounded frame counts across wrap-arounds", "anchors": ["soapy/atmosphere.py:atmos.moveScrns"]}
{"id": "C26", "title": "Infinite screens advance by the wind distance", "statement": "After n frames with per-frame displacement v >= 0 pixels an infinite screen has grown by exactly floor(n v) rows and the sub-pixel offset is the fractional part of n v.", "quantifier": "for every n and every v >= 0", "why_tests_cant": "unbounded frame counts", "anchors": ["soapy/atmosphere.py:InfinitePhaseScreen.move_screen"]}
{"id": "C27", "title": "Total turbulence strength is the configured r0", "statement": "However the layer strengths are scaled in the configuration, the layers' Fried parameters combine to the configured r0: the sum of r0_i^(-5/3) equals r0^(-5/3).", "quantifier": "for every list of positive layer strengths and every r0 > 0", "why_tests_cant": "real-analysis identity over all inputs", "anchors": ["soapy/atmosphere.py:atmos.__init__"]}
{"id": "C28", "title": "Requested coherence time is obtained", "statement": "If tau0 is given, wind speeds are rescaled such that the coherence time computed from them is exactly tau0 and the relative wind profile is kept.", "quantifier": "for every non-zero wind profile, strengths, r0 and tau0 > 0", "why_tests_cant": "real-analysis identity", "anchors": ["soapy/atmosphere.py:atmos.__init__"]}
{"id": "C29", "title": "Interpolation is safe and faithful", "statement": "Bilinear interpolation with coordinates in [0, n-1) only touches existing samples, returns a value between the extremes of the four neighbours, reproduces the samples at integer coordinates, is exact for bilinear data and is linear in the data.", "quantifier": "for every array, every size >= 2 and every coordinate in range", "why_tests_cant": "all coordinates including edges", "anchors": ["soapy/numbalib/numbalib.py:bilinear_interp", "soapy/numbalib/numbalib.py:bilinear_interp_numba"]}
{"id": "C30", "title": "Line-of-sight coordinates are always inside the screen", "statement": "Clipped coordinates used for screens and mirrors always yield in-bounds reads and do not change coordinates that are already inside.", "quantifier": "for every geometry, every screen size >= 2", "why_tests_cant": "all geometries", "anchors": ["soapy/lineofsight.py:LineOfSight.calculate_altitude_coords", "soapy/lineofsight.py:LineOfSight.makePhaseGeometric"]}
{"id": "C31", "title": "Geometric line of sight is additive and memoryless", "statement": "The phase returned for a set of screens and corrections is the sum of the interpolated screens minus the sum of the interpolated corrections (times the phase-to-radian factor), independent of previous frames and of the order of layers.", "quantifier": "for every history of frames, every list of screens and corrections", "why_tests_cant": "memorylessness is over all histories", "anchors": ["soapy/lineofsight.py:LineOfSight.frame", "soapy/lineofsight.py:LineOfSight.makePhaseGeometric", "soapy/lineofsight.py:LineOfSight.performCorrection"]}
{"id": "C32", "title": "Cone effect geometry", "statement": "For a source at finite height H the footprint at altitude h shrinks linearly with 1-h/H, covers the full pupil at the ground, collapses to a point at H, and its centre moves as h times the field angle (small angle approximation).", "quantifier": "for all heights and angles", "why_tests_cant": "identity over all geometries", "anchors": ["soapy/lineofsight.py:LineOfSight.calculate_altitude_coords", "soapy/lineofsight.py:LineOfSight.calcInitParams"]}
{"id": "C33", "title": "Physical propagation covers the whole path", "statement": "In physical propagation the light travels in total the distance between the start and the final altitude and every layer is applied at its own altitude, in order.", "quantifier": "for every ascending list of layer altitudes", "why_tests_cant": "all layer lists", "anchors": ["soapy/lineofsight.py:physical_atmosphere_propagation"]}
{"id": "C34", "title": "Screens are large enough for every line of sight", "statement": "The phase screen size computed from the configuration contains the footprint of every guide star and science direction on every layer.", "quantifier": "for every field geometry and layer heights", "why_tests_cant": "all field geometries incl. negative positions", "anchors": ["soapy/confParse.py:PY_Configurator.calcParams"]}
{"id": "C35", "title": "Derived parameters are stable under recalculation", "statement": "Calculating the derived parameters twice (as happens when loading and again when initialising) gives the same configuration as once.", "quantifier": "for every configuration", "why_tests_cant": "all configurations incl. None defaults", "anchors": ["soapy/confParse.py:PY_Configurator.calcParams"]}
{"id": "C36", "title": "Configuration loading accounts for every parameter", "statement": "Loading a section fails exactly when a required parameter is missing; otherwise every required parameter takes the file value and every optional one the file value if present and the documented default otherwise; unknown attributes cannot be set.", "quantifier": "for every parameter dictionary", "why_tests_cant": "all dictionaries", "anchors": ["soapy/confParse.py:ConfigObj.loadParams", "soapy/confParse.py:ConfigObj.__setattr__"]}
{"id": "C37", "title": "Detector binning conserves flux", "statement": "Binning an image by an integer factor keeps the total flux, and each detector pixel is the sum of its own n x n block.", "quantifier": "for every image and bin factor", "why_tests_cant": "all images", "anchors": ["soapy/numbalib/numbalib.py:bin_img", "soapy/numbalib/wfslib.py:bin_imgs"]}
{"id": "C38", "title": "In-place FFT shift", "statement": "The in-place 2-d FFT shift applied twice is the identity; for even dimensions it is the usual fftshift.", "quantifier": "for every array of every size", "why_tests_cant": "all sizes, odd sizes misbehave", "anchors": ["soapy/numbalib/numbalib.py:fftshift_2d_inplace"]}
{"id": "C39", "title": "Parallel loops are schedule independent", "statement": "The multi-threaded numeric kernels give the same result for every assignment of iterations to threads and every interleaving.", "quantifier": "for every permutation/interleaving of the loop iterations", "why_tests_cant": "tests observe only a few schedules", "anchors": ["soapy/numbalib/numbalib.py:bilinear_interp", "soapy/numbalib/numbalib.py:rotate", "soapy/numbalib/numbalib.py:bin_img", "soapy/numbalib/wfslib.py:chop_subaps", "soapy/numbalib/wfslib.py:place_subaps_on_detector"]}
{"id": "C40", "title": "Sub-apertures tile the pupil", "statement": "Sub-aperture boundaries are shared, so sub-apertures cover the pupil without gap or overlap; a sub-aperture is active exactly if its mean illumination reaches the threshold; they are numbered x-major.", "quantifier": "for every mask, number of sub-apertures and threshold", "why_tests_cant": "all sizes incl. non-divisible", "anchors": ["soapy/wfs/shackhartmann.py:findActiveSubaps", "soapy/wfs/shackhartmann.py:ShackHartmann.calcInitParams"]}
{"id": "C41", "title": "Slopes are referenced and tip-tilt can be removed", "statement": "A flat wavefront (the reference) measures exactly zero, and with tip-tilt removal the x and y measurements each average to zero.", "quantifier": "for every centroid vector and static offset", "why_tests_cant": "algebra for all inputs", "anchors": ["soapy/wfs/shackhartmann.py:ShackHartmann.calculateSlopes", "soapy/wfs/shackhartmann.py:ShackHartmann.getStatic"]}
{"id": "C42", "title": "Photon flux normalisation", "statement": "The read-out image contains the photon number of the guide-star magnitude, is linear in exposure time, and a star fainter by 2.5 magnitudes gives ten times fewer photons.", "quantifier": "for all non-dark images, magnitudes and exposure times", "why_tests_cant": "algebra for all inputs", "anchors": ["soapy/wfs/shackhartmann.py:photons_per_mag", "soapy/wfs/shackhartmann.py:ShackHartmann.readDetectorPlane"]}
{"id": "C43", "title": "Sub-aperture images land on their own detector pixels", "statement": "Sub-aperture images are placed inside the detector with the right size, and the pixels used for centroiding of different sub-apertures are disjoint; cutting the detector returns what was placed when the field stop equals the sub-aperture.", "quantifier": "for every sub-aperture count, pixel count and oversize", "why_tests_cant": "parity corner cases", "anchors": ["soapy/wfs/shackhartmann.py:findActiveSubaps", "soapy/numbalib/wfslib.py:place_subaps_on_detector", "soapy/numbalib/wfslib.py:chop_subaps"]}
{"id": "C44", "title": "FFT padding search terminates with the least adequate oversampling", "statement": "The search for the FFT padding ends with the smallest oversampling factor not below the configured one for which the padded size is at least the field-of-view size.", "quantifier": "for every pixel count >= 1 and field of view", "why_tests_cant": "termination for all inputs", "anchors": ["soapy/wfs/shackhartmann.py:ShackHartmann.initFFTs"]}
{"id": "C45", "title": "Science image is the normalised sum of all frames", "statement": "The long exposure image is the normalised sum of all instantaneous images since the last reset, instantaneous images have unit flux, and reset forgets everything.", "quantifier": "for every sequence of frames and resets", "why_tests_cant": "arbitrary histories", "anchors": ["soapy/scienceinstrument.py:PSFCamera.frame", "soapy/scienceinstrument.py:PSFCamera.reset", "soapy/scienceinstrument.py:PSFCamera.calcFocalPlane"]}
{"id": "C46", "title": "Wavefront error is a proper norm", "statement": "The reported wavefront error is non-negative, insensitive to piston, homogeneous, zero exactly for a constant residual over the aperture.", "quantifier": "for every residual and aperture mask", "why_tests_cant": "algebra for all inputs", "anchors": ["soapy/scienceinstrument.py:PSFCamera.calc_wavefronterror"]}
{"id": "C47", "title": "At most one loop thread, save only after it ended", "statement": "With start/stop from any caller, at most one loop thread runs at a time and data are never saved while a frame is being computed; each stop that follows a start saves exactly once.", "quantifier": "for every interleaving of start/stop calls and loop steps", "why_tests_cant": "schedules", "anchors": ["soapy/simulation.py:Sim.start_aoloop_thread", "soapy/simulation.py:Sim.stop_aoloop_thread", "soapy/simulation.py:Sim._aoloop_thread"]}
{"id": "C48", "title": "The loop runs exactly the configured number of frames", "statement": "aoloop runs exactly nIters frames unless interrupted, in which case completed frames are kept, and data are saved once in both cases; calling it again without reset runs no frame.", "quantifier": "for every nIters and every interruption point", "why_tests_cant": "all interruption points", "anchors": ["soapy/simulation.py:Sim.aoloop"]}
{"id": "C49", "title": "One plot update per GUI request", "statement": "The simulation puts at most one update per GUI request in the queue, never blocks on a GUI that stopped asking, and the GUI always shows the newest update available.", "quantifier": "for every interleaving of frames and GUI polls", "why_tests_cant": "schedules", "anchors": ["soapy/simulation.py:Sim.addToGuiQueue", "soapy/gui/gui.py:GUI.update"]}
{"id": "C50", "title": "Logging obeys the level", "statement": "A message of level l is printed exactly if the configured level is at least l, and raising the level never hides messages.", "quantifier": "for every level and message", "why_tests_cant": "small decision logic, stated for all", "anchors": ["soapy/logger.py:_printMessage", "soapy/logger.py:setLoggingLevel"]}
{"id": "C51", "title": "Pyramid measurements are flux independent and bounded", "statement": "Pyramid slopes do not change if the detector image is scaled by a positive factor and the measurement count is twice the number of valid pixels.", "quantifier": "for every detector image and mask", "why_tests_cant": "algebra", "anchors": ["soapy/wfs/pyramid.py:Pyramid.calculateSlopes"]}
{"id": "C52", "title": "Gradient sensor is linear and piston free", "statement": "Gradient sensor measurements are linear in the phase, vanish for constant phase and give the tilt for tilted phase.", "quantifier": "for every phase", "why_tests_cant": "algebra", "anchors": ["soapy/wfs/gradient.py:Gradient.calculateSlopes"]}
{"id": "C53", "title": "Laser launch geometry", "statement": "The uplink beam of an off-axis launched laser is at the launch telescope at ground level and at the beacon position at beacon height, moving linearly in between.", "quantifier": "for every launch position, beacon direction and height", "why_tests_cant": "identity for all inputs", "anchors": ["soapy/LGS.py:lgsOALaunchMetaPupilPos", "soapy/LGS.py:LGS.initLos"]}
{"id": "C54", "title": "Process-split FFT covers every row once", "statement": "Splitting a batch over P processes and merging returns every row transformed exactly once in its original place.", "quantifier": "for every batch size and process count", "why_tests_cant": "non-divisible sizes", "anchors": ["soapy/AOFFT.py:mpFFT"]}
{"id": "C55", "title": "Interaction-matrix pokes are noise free and leave settings unchanged", "statement": "Recording the interaction matrix runs the sensors without noise and tip-tilt removal and restores the previous settings afterwards.", "quantifier": "for every settings and poke", "why_tests_cant": "all settings; exceptional exit", "anchors": ["soapy/wfs/wfs.py:WFS.frame", "soapy/wfs/wfs.py:WFS.simple_frame"]}
{"id": "C56", "title": "Learn & Apply learns with the right sensor blocks", "statement": "The covariance blocks learned for off-axis and on-axis sensors are those of the right sensors.", "quantifier": "for every list of sensors", "why_tests_cant": "all sensor sizes", "anchors": ["soapy/reconstruction.py:LearnAndApply.learn"]}
{"id": "C57", "title": "Pupil mask has the simulation size", "statement": "The mask used by the simulation always has the simulation size, or an error is raised.", "quantifier": "for every mask input", "why_tests_cant": "all mask shapes", "anchors": ["soapy/simulation.py:make_mask"]}
{"id": "C58", "title": "A reset loop behaves like a fresh one", "statement": "After reset_loop, whatever was run before, the loop sends the same mirror commands as a freshly initialised simulation as long as it receives the same measurements, and the saved histories are blank.", "quantifier": "for every history before the reset and every measurement sequence after it", "why_tests_cant": "needs all histories before the reset; the state left behind (integrator, delay buffer, counters) shows only after particular histories", "anchors": ["soapy/simulation.py:Sim.reset_loop", "soapy/reconstruction.py:Reconstructor.reset"]}
{"id": "C59", "title": "Stored phase screens are reloaded at their strength", "statement": "Screens written by the simulation are read back without rescaling at the same pixel size; a screen made for any Fried parameter and pixel size is brought to the strength of the internal unit screens.", "quantifier": "for every Fried parameter and every pair of pixel sizes", "why_tests_cant": "identity over all real strengths and pixel sizes", "anchors": ["soapy/atmosphere.py:atmos.saveScrns", "soapy/atmosphere.py:atmos.__init__", "soapy/atmosphere.py:makePhaseScreens"]}
{"id": "C60", "title": "Science camera arrays fit together", "statement": "For every pupil size, field of view, pixel count and oversampling the science camera can form an image: the field fits into the FFT array, the cropped focal plane has the size of the intensity array and binning uses exactly all of it; in physical propagation cropping the padding leaves exactly the aperture.", "quantifier": "for every pupil size, field of view, pixel count, oversampling and padding", "why_tests_cant": "integer arithmetic over all sizes; failures occur only for particular parities", "anchors": ["soapy/scienceinstrument.py:PSFCamera.__init__", "soapy/scienceinstrument.py:PSFCamera.calcFocalPlane"]}
{"id": "C61", "title": "Elongated beacon layers are observed along the launched beam", "statement": "Each layer of an elongated laser guide star is observed in the direction in which the launched beam passes that height; the layer at the nominal height is observed in the direction of the guide star.", "quantifier": "for every guide star direction, launch position, beacon height and layer height", "why_tests_cant": "identity over all geometries; the usual tests have guide stars on axis, where the error vanishes", "anchors": ["soapy/wfs/wfs.py:WFS.calcElongPos"]}
{"id": "C62", "title": "The pyramid image depends only on the current frame", "statement": "The detector image of the pyramid sensor is the average over the modulation positions of the current wavefront: nothing of earlier frames or earlier contents of the buffers remains in it.", "quantifier": "for every wavefront and every earlier content of the buffers", "why_tests_cant": "the buffers start at zero, so that left-over contents show only in later frames and for particular modulation counts", "anchors": ["soapy/wfs/pyramid.py:Pyramid.calcFocalPlane"]}
{"id": "C63", "title": "Shifted focal planes are centred and keep their order", "statement": "The quadrant swap used for focal planes brings zero frequency to the middle pixel and keeps the frequencies in order, like the standard FFT shift; applied twice it restores an even-sized image.", "quantifier": "for every image size", "why_tests_cant": "the images usually inspected are symmetric; a mirrored or off-by-one shift shows only for particular images", "anchors": ["soapy/AOFFT.py:ftShift2d"]}
{"id": "C64", "title": "Zooming keeps shape and corners", "statement": "Zooming an array gives the requested shape, maps corners to corners, and zooming to the same size changes nothing; this holds for real and complex, square and rectangular arrays.", "quantifier": "for every array and requested size", "why_tests_cant": "arrays in tests are real and square; for others the code takes a different path", "anchors": ["soapy/interp.py:zoom"]}
{"id": "C65", "title": "Making the interaction matrix twice gives the same matrix", "statement": "Calling makeIMat a second time in the same session gives the same interaction matrix, valid actuators and control matrix sizes as the first call.", "quantifier": "for every mirror, every response and every set of dropped actuators", "why_tests_cant": "the first call changes the mirror (actuators are dropped); tests make the matrix once", "anchors": ["soapy/reconstruction.py:Reconstructor.make_dm_iMat", "soapy/DM.py:DM.valid_actuators"]}
{"id": "C66", "title": "Mirror blocks of the interaction matrix are the mirror's own", "statement": "get_dm_imat returns, for every mirror and sensor, exactly the responses of that mirror's actuators on that sensor's measurements.", "quantifier": "for every list of mirrors, sensors and dropped actuators", "why_tests_cant": "offsets depend on all earlier mirrors; an error shows only when an earlier mirror has dropped actuators", "anchors": ["soapy/reconstruction.py:Reconstructor.get_dm_imat", "soapy/reconstruction.py:Reconstructor.makeIMat"]}
{"id": "C67", "title": "Separate reconstructor keeps mirrors apart", "statement": "With MVM_SeparateDMs the command of each mirror depends only on the measurements of its own sensor, through the pseudo-inverse of its own block.", "quantifier": "for every list of mirrors, sensors, interaction matrix and measurement vector", "why_tests_cant": "cross-talk between blocks shows only for particular sizes and measurement vectors", "anchors": ["soapy/reconstruction.py:MVM_SeparateDMs.calcCMat"]}
{"id": "C68", "title": "A tomographic reconstructor survives a restart", "statement": "A LearnAndApply reconstructor started again in a directory where its matrices were saved ends with the same interaction matrix, mirrors and control matrix.", "quantifier": "for every set of mirrors, responses and saved matrices", "why_tests_cant": "needs two sessions and the state of one that is not saved", "anchors": ["soapy/reconstruction.py:LearnAndApply.makeIMat", "soapy/reconstruction.py:Reconstructor.load_interaction_matrix", "soapy/reconstruction.py:Reconstructor.loadCMat"]}
{"id": "C69", "title": "Tomographic control law", "statement": "LearnAndApply sends commands that depend only on the off-axis measurements, through the learned matrix, and follow the control law (gain, mode, previous command) of each mirror.", "quantifier": "for every matrix, gain, measurement vector and earlier command", "why_tests_cant": "statement over all measurement vectors; ignored gains show only when gains differ from 1", "anchors": ["soapy/reconstruction.py:LearnAndApply.reconstruct"]}
{"id": "C70", "title": "Laser tomography removes tip and tilt of the laser sensors", "statement": "LearnAndApplyLTAO reconstructs from laser measurements whose mean tilt has been removed and from the natural sensor's tip and tilt.", "quantifier": "for every list of sensors and measurement vector", "why_tests_cant": "statement over all measurement vectors and sensor sizes", "anchors": ["soapy/reconstruction.py:LearnAndApplyLTAO.calcCMat", "soapy/reconstruction.py:LearnAndApplyLTAO.reconstruct"]}
{"id": "C71", "title": "Laser uplink blurs each frame's light once", "statement": "The image of a laser guide star sensor with uplink turbulence is the sum, over the frames of the exposure, of each frame's light blurred once by that frame's laser spot.", "quantifier": "for every sensor, light, laser spot and every exposure pattern", "why_tests_cant": "needs exposures over several frames with different spots", "anchors": ["soapy/wfs/shackhartmann.py:ShackHartmann.applyLgsUplink", "soapy/wfs/wfs.py:WFS.frame"]}
{"id": "C72", "title": "Poke responses do not depend on what ran before", "statement": "The response to a poke while making the interaction matrix is the noise-free image of that poke alone, whatever the sensor did before.", "quantifier": "for every sensor, earlier run and poke", "why_tests_cant": "needs all histories; the leftover appears only after a frame that was not read out", "anchors": ["soapy/wfs/wfs.py:WFS.frame", "soapy/wfs/wfs.py:WFS.zeroData"]}
{"id": "C73", "title": "Noise in the interaction matrix follows the option", "statement": "With imat_noise the interaction matrix contains the configured sensor noise, without it none; the sensor's noise settings are unchanged afterwards.", "quantifier": "for every sensor, state, light and random numbers", "why_tests_cant": "statement over all random numbers; noise and no noise are told apart only statistically by a test", "anchors": ["soapy/reconstruction.py:Reconstructor.make_dm_iMat", "soapy/wfs/wfs.py:WFS.frame"]}
{"id": "C74", "title": "Every mirror type shows its shapes centred on the screen", "statement": "A Zernike, Karhunen-Loeve, custom, Gaussian-stack, stack or tip-tilt mirror shows, in the middle of its screen and up to piston, the sum of command times influence function times iMatValue; a configuration that cannot do this is refused when the mirror is made.", "quantifier": "for every mirror type, screen and mirror size, number of actuators, influence function, command and earlier commands", "why_tests_cant": "failures occur for single size combinations; a test has a few", "anchors": ["soapy/DM.py:Zernike.makeIMatShapes", "soapy/DM.py:KarhunenLoeve.makeIMatShapes", "soapy/DM.py:Piezo.makeIMatShapes", "soapy/DM.py:GaussStack.makeIMatShapes", "soapy/DM.py:TT.makeIMatShapes", "soapy/DM.py:DM.dmFrame"]}
{"id": "C75", "title": "A tip-tilt command of one is one arcsecond", "statement": "With iMatValue 1, a command of 1 on a tip-tilt mirror tilts the wavefront by one arcsecond along the axis of the command and not along the other; the two modes have no piston and are orthogonal.", "quantifier": "for every mirror size, diameter, command and earlier commands", "why_tests_cant": "statement over all sizes and diameters", "anchors": ["soapy/DM.py:TT.makeIMatShapes"]}
{"id": "C76", "title": "FastPiezo shows what Piezo shows", "statement": "With the same actuators left and the same commands, a FastPiezo shows the same surface as a Piezo mirror.", "quantifier": "for every linear spline, size, set of actuators, command and earlier commands", "why_tests_cant": "equality of two programs over all commands and sizes", "anchors": ["soapy/DM.py:Piezo.makeIMatShapes", "soapy/DM.py:FastPiezo.makeDMFrame", "soapy/DM.py:DM.dmFrame"]}
{"id": "C77", "title": "Missing data stay out of interpolated custom shapes", "statement": "Shapes from a file are used unchanged if they have the mirror's size, otherwise interpolated from their valid points only, over the whole mirror.", "quantifier": "for every image, missing value and pair of sizes", "why_tests_cant": "statement over all images and sizes", "anchors": ["soapy/interp.py:zoomWithMissingData", "soapy/DM.py:CustomShapes.makeIMatShapes"]}
{"id": "C78", "title": "Actuators form a regular grid on the mirror", "statement": "The actuators of a stack mirror are equally spaced, symmetric about the mirror's centre and on the mirror; the influence function of one is zero at the others.", "quantifier": "for every mirror size and number of actuators", "why_tests_cant": "statement over all pairs of sizes; rounding matters only for some", "anchors": ["soapy/DM.py:Piezo.makeIMatShapes", "soapy/DM.py:Piezo.getActiveActs", "soapy/DM.py:GaussStack.makeIMatShapes"]}
{"id": "C79", "title": "The closed loop removes a static aberration", "statement": "If the control matrix inverts the measured interaction matrix, a static aberration that the mirrors can make is removed mode by mode: without delay a fraction (1-gain)^n is left after n frames, so it goes away exactly for gains between 0 and 2; with a delay of one frame exactly for gains between 0 and 1; with a delay of d frames exactly for gains between 0 and 2 sin(pi/(2(2d+1))) (so the default gain 0.6 works up to a delay of two frames and no further); without overshoot for gains up to d^d/(d+1)^(d+1).", "quantifier": "for every set of closed-loop mirrors, influence functions, linear sensor, delay, gains, aberration and number of frames", "why_tests_cant": "a limit over infinitely many frames and all gains; a run shows one gain", "anchors": ["soapy/simulation.py:Sim.loopFrame", "soapy/reconstruction.py:Reconstructor.reconstruct", "soapy/reconstruction.py:Reconstructor.make_dm_iMat", "soapy/lineofsight.py:LineOfSight.performCorrection", "soapy/DM.py:DM.dmFrame"]}
{"id": "C80", "title": "A measurement that is not a number does not stay in the loop", "statement": "A NaN in a measurement is replaced by zero before the reconstructor sees it; commands and mirror surfaces stay numbers.", "quantifier": "for every sensor size, image, history of measurements, control matrix, set of mirrors and gains", "why_tests_cant": "a dark sub-aperture is rare; the statement is about all later frames", "anchors": ["soapy/wfs/wfs.py:WFS.frame", "soapy/wfs/shackhartmann.py:ShackHartmann.calculateSlopes", "soapy/wfs/pyramid.py:Pyramid.calculateSlopes", "soapy/reconstruction.py:Reconstructor.reconstruct", "soapy/reconstruction.py:Reconstructor.apply_gain", "soapy/simulation.py:DelayBuffer.delay", "soapy/DM.py:DM.makeDMFrame"]}
{"id": "C81", "title": "A flat wavefront gives spots in the middle of the sub-apertures", "statement": "For a flat wavefront the image of a sub-aperture, on the FFT and on the detector, is symmetric about the middle of the sub-aperture and has its centre of gravity there.", "quantifier": "for every number of pixels, FFT size, number of elements, real pupil weight, field of view, diameter and wavelength", "why_tests_cant": "over the reals; sampling shows only approximate centring, and the reference slopes hide the offset", "anchors": ["soapy/wfs/shackhartmann.py:ShackHartmann.calcTiltCorrect", "soapy/wfs/shackhartmann.py:ShackHartmann.calcFocalPlane", "soapy/AOFFT.py:ftShift2d", "soapy/numbalib/wfslib.py:bin_imgs"]}
{"id": "C82", "title": "A tilt moves a spot by whole pixels, a piston does not", "statement": "Adding a constant phase to a sub-aperture changes nothing; adding a tilt of a waves over the FFT moves the image by a elements (cyclically), on the detector by whole pixels when a is a multiple of the binning.", "quantifier": "for every field, tilt correction, FFT size, binning and whole number of waves", "why_tests_cant": "statement over all fields and tilts", "anchors": ["soapy/wfs/shackhartmann.py:ShackHartmann.calcFocalPlane", "soapy/AOFFT.py:ftShift2d", "soapy/numbalib/wfslib.py:bin_imgs"]}
{"id": "C83", "title": "The laser is focused at the beacon by a centred lens", "statement": "The phase put on the launched beam is, up to a constant, the parabola that focuses at the height of the beacon; the lens is in the middle of the beam; the spot is the middle of the propagated field.", "quantifier": "for every height, diameter, wavelength, array size and beam size", "why_tests_cant": "over the reals and all sizes; the error for other parities is half an element", "anchors": ["soapy/LGS.py:LGS_Physical.calcInitParams", "soapy/LGS.py:LGS_Physical.getLgsPsf"]}
{"id": "C84", "title": "The laser spot has the scale of the sub-aperture image", "statement": "An element of the laser spot covers the same angle as an element of the image it is convolved with.", "quantifier": "for every field of view, wavelength, diameter and sampling", "why_tests_cant": "scales agree in one configuration and not in another", "anchors": ["soapy/wfs/shackhartmann.py:ShackHartmann.initLGS", "soapy/LGS.py:LGS_Physical.calcInitParams", "soapy/wfs/shackhartmann.py:ShackHartmann.calcInitParams"]}
{"id": "C85", "title": "Layers of an elongated beacon get their own defocus and tilt", "statement": "A layer at the nominal height gets no phase; a layer at another height gets, between centre and edge of the pupil, the path difference of its distance; a laser launched on axis gives no tilt.", "quantifier": "for every wavelength, diameter, pair of heights, launch position and point of the pupil", "why_tests_cant": "over the reals; a factor of two looks plausible in every single picture", "anchors": ["soapy/wfs/wfs.py:WFS.calcElongPhaseAddition"]}
{"id": "C86", "title": "The Strehl ratio never exceeds one", "statement": "A flat wavefront has a Strehl ratio of one, and no wavefront and no sequence of wavefronts has a larger one.", "quantifier": "for every aperture, phase, sequence of phases, image size, field of view and oversampling", "why_tests_cant": "maximum over all wavefronts; every single frame of a test looks plausible", "anchors": ["soapy/scienceinstrument.py:PSFCamera.calcFocalPlane", "soapy/scienceinstrument.py:PSFCamera.calcInstStrehl", "soapy/scienceinstrument.py:PSFCamera.__init__"]}
{"id": "C87", "title": "Light of a sub-aperture is proportional to its lit area", "statement": "The light in the image of a sub-aperture does not depend on the phase and is proportional to the part of the sub-aperture that is lit.", "quantifier": "for every mask, phase, tilt correction, FFT size and binning", "why_tests_cant": "a statement over all phases and masks", "anchors": ["soapy/wfs/shackhartmann.py:ShackHartmann.calcFocalPlane", "soapy/wfs/shackhartmann.py:ShackHartmann.integrateDetectorPlane", "soapy/numbalib/wfslib.py:chop_subaps_mask"]}
{"id": "C88", "title": "The light of the pyramid does not depend on the phase", "statement": "The light on the detector of a pyramid sensor is the light in its pupil, whatever the phase and the modulation, and a frame of relative intensity x has x times the light.", "quantifier": "for every mask, phase, modulation, pyramid, number of modulation points and binning", "why_tests_cant": "a statement over all phases; unwritten memory gives a different result every time", "anchors": ["soapy/wfs/pyramid.py:Pyramid.calcFocalPlane", "soapy/wfs/pyramid.py:rebin"]}
{"id": "C89", "title": "Every type of sensor can be made and used", "statement": "A sensor of any of the exported classes can be made from a configuration and then used in any order (frames with or without correction and reading, simple frames, new masks, its number of measurements) without a missing attribute, method, keyword or name.", "quantifier": "for every class, configuration and sequence of uses, whatever the branches and loops not decided by the configuration do", "why_tests_cant": "every path through the class hierarchy and every order of calls; tests use one configuration and a few frames", "anchors": ["soapy/wfs/wfs.py:WFS", "soapy/wfs/shackhartmann.py:ShackHartmann", "soapy/wfs/pyramid.py:Pyramid", "soapy/wfs/gradient.py:Gradient", "soapy/wfs/zernike.py:Zernike", "soapy/wfs/extendedshackhartmann.py:ExtendedSH", "soapy/wfs/shackhartmann_legacy.py:ShackHartmannLegacy"]}
{"id": "C90", "title": "A calibrated simulation can be used in any order", "statement": "A simulation made from a configuration and calibrated with new matrices (aoinit, makeIMat(forceNew=True)) can then be used in any order (frames, loops, loops in a thread, resets, calibrations, new aoinit, saving) without a missing attribute or method, a wrong call or another error of its own.", "quantifier": "for every type of mirror, reconstructor and camera, every setting and every sequence of uses, whatever branches and loops not decided by the settings do", "why_tests_cant": "every path through 20 classes times every combination of 27 settings times every order of calls", "anchors": ["soapy/simulation.py:Sim", "soapy/DM.py:DM", "soapy/reconstruction.py:Reconstructor", "soapy/scienceinstrument.py:PSFCamera"]}
{"id": "C91", "title": "Matrices from disk work like new ones", "statement": "A simulation whose matrices are loaded from disk, or made anew because they are not there, can be used in any order like one with new matrices.", "quantifier": "for every type of mirror, reconstructor and camera, every setting, whatever is on disk, and every sequence of uses", "why_tests_cant": "depends on files from earlier runs, on the order of calls and on every setting", "anchors": ["soapy/simulation.py:Sim", "soapy/DM.py:DM", "soapy/reconstruction.py:Reconstructor", "soapy/scienceinstrument.py:PSFCamera"]}
{"id": "C92", "title": "Both file formats give the same configuration", "statement": "A Python file and a YAML file that describe the same system load to the same configuration, or both fail; every YAML file can be written as a Python file.", "quantifier": "for all classes of parameters, numbers of components, files, and derived parameters", "why_tests_cant": "two files and every combination of parameters present or left out", "anchors": ["soapy/confParse.py:PY_Configurator.loadSimParams", "soapy/confParse.py:YAML_Configurator.loadSimParams", "soapy/confParse.py:ConfigObj.loadParams"]}
{"id": "C93", "title": "What is loaded depends on the file alone", "statement": "Loading a configuration file gives the same configuration, or the same error, whatever was loaded before in the same process.", "quantifier": "for all sequences of files of both formats", "why_tests_cant": "a statement over histories of a process", "anchors": ["soapy/confParse.py:PY_Configurator.readfile", "soapy/confParse.py:loadSoapyConfig"]}
{"id": "C94", "title": "A number means the same in both file formats", "statement": "A number written in a configuration file has the same value whether the file is YAML or Python.", "quantifier": "for all decimal literals and all parameters that are single numbers", "why_tests_cant": "every way to write a number, times every parameter", "anchors": ["soapy/confParse.py:YAML_Configurator.readfile", "soapy/confParse.py:DmConfig.calcParams", "soapy/confParse.py:SciConfig.calcParams"]}
{"id": "C95", "title": "Every saved history holds the frames of the current run", "statement": "After any sequence of frames and reset_loop calls, row j of every recorded history (measurements, commands, laser images, instantaneous and long-exposure Strehl ratios, wavefront errors, residual phases, instantaneous images and fields) holds the latest frame since the last reset whose number is j modulo nIters, and zero if there is none.", "quantifier": "for every set of recording options, number of rows, sequence of frames and resets, and values", "why_tests_cant": "depends on all sequences of frames and resets and on memory contents; a test sees one run", "anchors": ["soapy/simulation.py:Sim.initSaveData", "soapy/simulation.py:Sim.storeData", "soapy/simulation.py:Sim.reset_loop"]}
{"id": "C96", "title": "Sensor frames on disk are the frames of the run", "statement": "With saveWfsFrames, the loop can go on and be reset as often as without, and the saved cube of each sensor holds its detector images in the order of the frames.", "quantifier": "for every number of sensors, number of frames, sequence of frames and resets, and images", "why_tests_cant": "the failure needs more frames than nIters or a reset with files from before; a single run of a test passes", "anchors": ["soapy/simulation.py:Sim.storeData", "soapy/simulation.py:Sim.saveData", "soapy/simulation.py:Sim.reset_loop"]}
{"id": "C97", "title": "Finished runs are never overwritten", "statement": "Every run has a directory of its own: a file in the directory of a run was written by that run, and once the run is over its files never change, whatever other processes do at the same time, under the same or another simName; and every run gets a directory.", "quantifier": "for every number of processes, names, clock, and interleaving of their steps", "why_tests_cant": "races between processes and equal time stamps do not occur in a test", "anchors": ["soapy/simulation.py:Sim.initSaveData", "soapy/simulation.py:Sim.getTimeStamp", "soapy/simulation.py:Sim.saveData"]}
{"id": "C98", "title": "Wind blows in the configured direction for both kinds of screens", "statement": "With windSpeeds and windDirs the turbulence of every layer moves across the pupil with the configured speed in the configured direction, by the same convention for finite and infinite screens and for all angles.", "quantifier": "for every screen, generator of new rows, speed, angle and number of frames", "why_tests_cant": "a test would have to find the motion of random screens for all angles and both kinds of screens", "anchors": ["soapy/atmosphere.py:atmos.moveScrns", "soapy/atmosphere.py:InfinitePhaseScreen.move_screen", "soapy/atmosphere.py:InfinitePhaseScreen.rotate_screen", "soapy/numbalib/numbalib.py:rotate"]}
{"id": "C99", "title": "The same seed gives the same run", "statement": "With atmos.randomSeed set, running the same program on the same configuration again gives the same turbulence and the same recorded data, in whichever process and after whatever random numbers were drawn before.", "quantifier": "for every generator, entropy of the processes, state of numpy's global generator, configuration, system, and program of frames, calibrations and resets", "why_tests_cant": "tests cannot vary entropy and global state over all values", "anchors": ["soapy/atmosphere.py:atmos.__init__", "soapy/atmosphere.py:atmos.moveScrns", "soapy/atmosphere.py:atmos.randomScrns", "soapy/wfs/shackhartmann.py:ShackHartmann.addPhotonNoise", "soapy/wfs/shackhartmann.py:ShackHartmann.addReadNoise"]}
{"id": "C100", "title": "The same seed gives the same turbulence to every system", "statement": "With the same atmos configuration and randomSeed, frame n shows the same turbulence whatever sensors, mirrors, reconstructor, noise and calibration the system has, and whether its matrices are made or loaded; with finite screens also whatever the number of further layers.", "quantifier": "for every generator, atmosphere, pair of systems, pair of programs with as many frames, and entropy of the processes; systems whose screens have the same size (their size follows from the directions of guide stars and targets, see C142).", "why_tests_cant": "comparing systems on the same turbulence needs all systems and programs", "anchors": ["soapy/atmosphere.py:atmos.moveScrns", "soapy/atmosphere.py:atmos.randomScrns", "soapy/reconstruction.py:Reconstructor.__init__", "soapy/reconstruction.py:LearnAndApply.learn"]}
{"id": "C101", "title": "Coupling into a single-mode fibre is an efficiency", "statement": "The coupling a singleModeFibre reports lies between 0 and 1, never exceeds the reference efficiency printed when it is made, equals it exactly when the wavefront is flat over the pupil, and its long-exposure value follows the frames.", "quantifier": "for every pupil mask, fibre size, turbulence, correction and number of frames", "why_tests_cant": "an upper bound over all wavefronts, with its case of equality", "anchors": ["soapy/scienceinstrument.py:singleModeFibre.calcInstStrehl", "soapy/scienceinstrument.py:singleModeFibre.refCouplingLoss", "soapy/scienceinstrument.py:singleModeFibre.fibreEfield"]}
{"id": "C102", "title": "A science camera sees phase and pupil at the same places and keeps its plate scale", "statement": "Each element of the aperture of a PSFCamera shows phase and mask of the same point of the telescope, phase outside the pupil has no effect on the image, and a wavefront tilted by w waves over the telescope moves the image by w lambda/D as the configured field of view says.", "quantifier": "for every phase, tilt, mask, pupil size, padding, field of view and oversampling", "why_tests_cant": "an identity of images over all masks and sizes; one set of sizes says nothing about another", "anchors": ["soapy/scienceinstrument.py:PSFCamera.__init__", "soapy/scienceinstrument.py:PSFCamera.calcFocalPlane", "soapy/numbalib/numbalib.py:bilinear_interp", "soapy/interp.py:zoom"]}
{"id": "C103", "title": "Convolved images keep their light, place and orientation", "statement": "AOFFT.convolve, AOFFT.Convolve and the uplink blur of a Shack-Hartmann sensor give the cyclic convolution of their images about the middle: the light is the product of the light, the order does not matter, a bright pixel in the middle changes nothing, and a symmetric spot blurred with a symmetric laser stays in the middle.", "quantifier": "for every pair of images and every size", "why_tests_cant": "an identity of Fourier sums over all images and sizes", "anchors": ["soapy/AOFFT.py:convolve", "soapy/AOFFT.py:Convolve.__call__", "soapy/wfs/shackhartmann.py:ShackHartmann.applyLgsUplink", "soapy/AOFFT.py:ftShift2d"]}
{"id": "C104", "title": "An FFT object gives the transform of what it is given, whatever library does the work", "statement": "AOFFT.FFT gives the same result for the same data and direction in every mode: data not larger than the object are padded, an array set as inputData is what the next call transforms, a result stays as it was returned, the caller's data are left alone, and a library that is missing is replaced by the next one.", "quantifier": "for every data, size, direction and every sequence of calls and writes", "why_tests_cant": "depends on which arrays share memory over any sequence of operations; no machine has every library", "anchors": ["soapy/AOFFT.py:FFT.__init__", "soapy/AOFFT.py:FFT.fft", "soapy/AOFFT.py:FFT.__call__"]}
{"id": "C105", "title": "Every way to bin, cut and place images gives the same", "statement": "interp.binImgs sums the same blocks as bin_img and keeps all light or refuses, and the plain Python versions of the compiled kernels (bin_img_slow, bin_imgs_slow, chop_subaps_slow, chop_subaps_mask_slow, place_subaps_on_detector_slow) give what the compiled ones give under every schedule.", "quantifier": "for every image, size, binning factor, schedule and set of windows", "why_tests_cant": "universal over sizes and thread schedules; no test calls the plain versions", "anchors": ["soapy/interp.py:binImgs", "soapy/numbalib/numbalib.py:bin_img_slow", "soapy/numbalib/wfslib.py:bin_imgs_slow", "soapy/numbalib/wfslib.py:chop_subaps_slow", "soapy/numbalib/wfslib.py:place_subaps_on_detector_slow", "soapy/numbalib/wfslib.py:chop_subaps_efield"]}
{"id": "C106", "title": "The GUI does one job at a time and Stop stops", "statement": "However the buttons of the GUI are pressed, at most one of loop, initialisation, calibration, single frame and reset works on the simulation at a time; after Stop no loop begins another frame and every loop thread ends.", "quantifier": "for every sequence of button presses and every interleaving with the threads", "why_tests_cant": "depends on the interleaving of Qt's main thread with worker threads; the GUI is not tested", "anchors": ["soapy/gui/gui.py:GUI.run", "soapy/gui/gui.py:GUI.stop", "soapy/gui/gui.py:GUI.init", "soapy/gui/gui.py:GUI.iMat", "soapy/gui/gui.py:LoopThread.run", "soapy/gui/gui.py:InitThread.run", "soapy/gui/gui.py:IMatThread.run"]}
{"id": "C107", "title": "What a frame returned stays what it was", "statement": "An array returned by a frame (moveScrns, LineOfSight.frame, WFS.frame, reconstruct, dmFrame, PSFCamera.frame, runWfs, runDM) still holds the values it had when it was returned, whatever frames follow: a user who collects the results of a run in a list gets the results of the run.", "quantifier": "for every part, every number of frames, all values and all mixtures of read and unread, corrected and uncorrected frames", "why_tests_cant": "a test looks at a result right after the call; what an array holds later depends on the whole sequence of calls and on which arrays are shared", "anchors": ["soapy/atmosphere.py:atmos.moveScrns", "soapy/lineofsight.py:LineOfSight.frame", "soapy/DM.py:DM.dmFrame", "soapy/scienceinstrument.py:PSFCamera.frame", "soapy/wfs/wfs.py:WFS.frame", "soapy/reconstruction.py:Reconstructor.reconstruct", "soapy/simulation.py:Sim.runWfs_noMP", "soapy/simulation.py:Sim.runDM"]}
{"id": "C108", "title": "A parameter that is left out has its documented default", "statement": "For every configuration class and every file: an optional parameter that is left out has the default the manual gives, a parameter that is given has the given value, a file without a parameter the manual calls required is refused, and every parameter that can be set is in the manual.", "quantifier": "for every class, every documented parameter and every file", "why_tests_cant": "the manual is not executable; tests load complete example files and never leave parameters out one by one", "anchors": ["soapy/confParse.py:SimConfig", "soapy/confParse.py:AtmosConfig", "soapy/confParse.py:TelConfig", "soapy/confParse.py:LgsConfig", "soapy/confParse.py:WfsConfig", "soapy/confParse.py:DmConfig", "soapy/confParse.py:ReconstructorConfig", "soapy/confParse.py:SciConfig", "soapy/confParse.py:ConfigObj.loadParams"]}
{"id": "C109", "title": "A Shack-Hartmann sensor has the configured plate scale", "statement": "With geometric propagation a wavefront tilted by an angle moves the images of all sub-apertures of a Shack-Hartmann sensor by that angle, as subapFOV and pxlsPerSubap say; every sub-aperture sees its own part of the pupil, mask and phase at the same points, and lies in the sampled field.", "quantifier": "for every pupil size, padding, number of sub-apertures, field of view, wavelength, mask, tilt and sub-aperture", "why_tests_cant": "the tests check that a sensor can be made and run, at one configuration, and never compare a displacement with the angle that caused it", "anchors": ["soapy/wfs/shackhartmann.py:ShackHartmann.calcInitParams", "soapy/wfs/shackhartmann.py:ShackHartmann.findActiveSubaps", "soapy/wfs/shackhartmann.py:ShackHartmann.setMask", "soapy/wfs/shackhartmann.py:ShackHartmann.calcFocalPlane", "soapy/numbalib/wfslib.py:zoomtoefield", "soapy/numbalib/wfslib.py:chop_subaps_mask"]}
{"id": "C110", "title": "The closed loop follows a changing aberration, and errors of measurements stay bounded", "statement": "In closed loop with linear sensors, a command matrix that inverts the interaction matrix and a gain g <= 1 with g*loopDelay < 1, what is left of an aberration that changes by at most delta per frame and is measured with an error of at most eps gets geometrically below (1 + g d)(delta/g + eps)/(1 - g d) and stays there in every later frame; a steady drift v leaves v/g; uncorrelated noise of variance s2 leaves at most g/(2-g)*s2 without delay, at most g(1+g)/((1-g)(2+g))*s2 with a delay of one frame. For every delay, bounded changes and errors leave something bounded, and uncorrelated noise a bounded variance, exactly for the gains between 0 and 2 sin(pi/(2(2d+1))).", "quantifier": "for every system of closed-loop mirrors, delay, gain, course of the aberration, errors of the measurements and number of frames", "why_tests_cant": "the tests run a few frames of random turbulence and never compare what is left with the change per frame or the noise; no finite run shows a bound for all later frames", "anchors": ["soapy/simulation.py:Sim.loopFrame", "soapy/reconstruction.py:Reconstructor.reconstruct", "soapy/lineofsight.py:LineOfSight.performCorrection", "soapy/DM.py:DM.dmFrame"]}
{"id": "C111", "title": "A simulation that calibrates itself corrects what its mirrors can make", "statement": "Sim.aoinit, makeIMat and aoloop together, for any number of mirrors, layers and sensors at any altitudes and in any directions (geometric propagation, sensors with measurements linear in the phase such as the gradient sensor, no noise): poking the mirrors raises no exception, and with a control matrix that undoes the interaction matrix the simulation measured itself (the pseudo-inverse does whenever no combination of the kept actuators is invisible) the loop completes, the slopes are at every frame the uncorrected slopes minus the commands times the interaction matrix, and each command follows what the control matrix reconstructs from the slopes that would be measured without mirrors, late by the loop delay and with the gain of its mirror. If the atmosphere stands still and its slopes could be made by the mirrors, the commands converge to those that make them and all slopes to zero; if it changes slowly the distance stays bounded. Both hold for all gains between 0 and 2 sin(pi/(2(2d+1))), d being the delay in frames; with a gain outside of this range a command that should be other than zero does not settle.", "quantifier": "for all screen sizes of at least two pixels, altitudes, directions, pixel weights of the sensors, shapes, dropped actuators, gains, delays, atmospheres and numbers of frames", "why_tests_cant": "a test closes one loop with one configuration and compares residuals with a threshold; that the sign of the interaction matrix, the order of mirrors and sensors, the dropping of actuators, the interpolation on the mirrors, the delay and the gains fit together in every configuration is a statement about all of them", "anchors": ["soapy/simulation.py:Sim.runWfs_noMP", "soapy/simulation.py:Sim.runDM", "soapy/simulation.py:Sim.loopFrame", "soapy/reconstruction.py:Reconstructor.makeIMat", "soapy/reconstruction.py:Reconstructor.make_dm_iMat", "soapy/lineofsight.py:LineOfSight.frame", "soapy/wfs/gradient.py:Gradient.calculateSlopes"]}
{"id": "C112", "title": "Moving turbulence keeps its strength", "statement": "The turbulence an infinite phase screen hands to the simulation has the structure function (mean square phase difference against separation) of the screen it generates, in every frame. What holds: in frame n the structure function handed out is the generated one less f(1-f)(2 D(1,0) + 2 D(n,m) - D(n+1,m) - D(n-1,m)), where f is the fractional part of the number of pixels blown so far; so it never grows, it loses at most 4 f(1-f) D(1,0), it is exact in every frame when the wind moves a whole number of pixels per frame, and it is too weak in some frame for every other wind speed unless the phase is a straight line from row to row. The same upper bound holds for the bilinear reading along every line of sight.", "quantifier": "all finite probability spaces of screens and new rows whose stored screen is stationary, all structure functions, screen sizes, wind speeds >= 0, frame numbers and pairs of interior pixels", "why_tests_cant": "Statistical property over random draws and all frames; a test sees one realisation, and the loss oscillates with the sub-pixel offset, vanishing in the frames (or at the speeds) a test is likely to pick.", "anchors": ["soapy/atmosphere.py:InfinitePhaseScreen.move_screen", "soapy/atmosphere.py:InfinitePhaseScreen.__init__", "soapy/numbalib/numbalib.py:bilinear_interp", "soapy/lineofsight.py:LineOfSight.makePhase"]}
{"id": "C113", "title": "A parameter set before initialisation takes effect as if it were in the file", "statement": "Load a configuration, set one parameter of sim.config, then initialise (the workflow of the manual): the simulation is initialised with the configuration that a file with that value gives. What holds: this is so for every parameter except exactly those that were filled in when the file was loaded. The loop time does not reach sensors whose exposure time was left out; the telescope diameter does not reach mirrors without diameter; the number of screens does not reach an outer scale left out; a sensor that had one sub-aperture keeps the field stop; the field of view of a camera without pixel scale cannot be changed at all, and changing its number of pixels changes its field of view; more sodium layers than at loading make every frame fail.", "quantifier": "for all configurations, all parameters read or written by the calculation of derived parameters, all values", "why_tests_cant": "A relation between two different sessions (file edited / attribute set) over all parameters and values; tests set one or two parameters and never compare with an edited file.", "anchors": ["soapy/confParse.py:PY_Configurator.calcParams", "soapy/confParse.py:SciConfig.calcParams", "soapy/confParse.py:LgsConfig.calcParams", "soapy/confParse.py:WfsConfig.calcParams", "soapy/simulation.py:Sim.aoinit"]}
{"id": "C114", "title": "A guide star can be moved while the simulation runs", "statement": "LineOfSight offers position and height as attributes that can be assigned, and the configuration has GSPosition and wavelength: after an assignment the following frames should be those of a line of sight to the new position. What holds: the assigned value is read back but no frame changes, however often and whatever is assigned; on a tilted layer the phase is wrong by the slope times the displacement of the footprint. After calcInitParams the new direction is used, but the height and the wavelength remain those of the first initialisation and the output size is that of the call. After initialising again the last GSPosition, height and wavelength are used and what was assigned to los.position is forgotten.", "quantifier": "for all lines of sight, all sequences of assignments, recalculations and initialisations, all screens and corrections", "why_tests_cant": "Stale derived state over arbitrary sequences of assignments; tests never assign these attributes.", "anchors": ["soapy/lineofsight.py:LineOfSight.position", "soapy/lineofsight.py:LineOfSight.height", "soapy/lineofsight.py:LineOfSight.calcInitParams", "soapy/lineofsight.py:LineOfSight.frame", "soapy/confParse.py:WfsConfig.calcParams"]}
{"id": "C115", "title": "An infinite screen stays the turbulence it was made for, however long the simulation runs", "statement": "The rows that `InfinitePhaseScreen` (`atmos.infinite = True`) adds in front of the screen have, in every frame and however many rows were added before, mean zero, the variance of the turbulence model, and with every pixel of the rows not further away than the stencil is deep (`n_columns`, two rows) the covariance the model has for their distance; hence the structure function at those distances is the model's. The separations the matrices are made from are distances: not negative, zero on the diagonal, symmetric, unchanged by shifts. For pixels in rows further apart than the stencil the screen knows nothing of the model.", "quantifier": "for every covariance function, pixel scale, screen width, stencil depth, every pair of row numbers not further apart than the stencil, every pair of pixels, every uncorrelated sequence of random numbers of variance one and every first screen that has the model's covariances", "why_tests_cant": "A test sees one realisation of finitely many rows; the claim is about averages and about unboundedly many rows, where errors could accumulate (a screen that slowly gains or loses strength looks right in any short run).", "anchors": ["soapy/atmosphere.py:InfinitePhaseScreen.calc_seperations", "soapy/atmosphere.py:calculate_seperations", "soapy/atmosphere.py:InfinitePhaseScreen.move_screen"]}
{"id": "C116", "title": "The pyramid sensor measures a flat wavefront as zero and does not see piston", "statement": "A flat wavefront of any height gives zero slopes everywhere in every frame, because the reference made at initialisation (`calcFlatSlopes`) is what a flat wavefront shows; adding a constant to a wavefront changes nothing. This holds for pupils that are zero or one, at least 32 modulation points and without read noise, whatever the FFT buffers held before. It fails after `setMask`, which may be called during a simulation but leaves the old reference, and with read noise, which stays in the reference.", "quantifier": "for every binary pupil mask, array size, binning, modulation, apex angle, wavefront and piston, every content of the buffers and every detector mask", "why_tests_cant": "The reference goes through another branch (mask as phase, no division by the number of points) than the frames; that both agree for all pupils and wavefronts is an identity of transforms that no sample establishes.", "anchors": ["soapy/wfs/pyramid.py:Pyramid.calcFlatSlopes", "soapy/wfs/pyramid.py:Pyramid.calcFocalPlane", "soapy/wfs/pyramid.py:Pyramid.calculateSlopes", "soapy/wfs/wfs.py:WFS.setMask"]}
{"id": "C117", "title": "Each face of the pyramid sends the pupil onto its quadrant of the detector mask", "statement": "`apex` and `calcPyramidMask` on one side and `calcDetectorMask` on the other place the four pupil images independently; they agree: the pyramid is the same roof along rows and columns with its edge in the middle; the face facing a quadrant has the phase of a shift by half of pupil plus separation; light refracted by it arrives exactly on the pixels of that quadrant's mask, pixel (x, y) of each image being element block (x, y) of the pupil. For an odd `pupil_separation` the mask is that of the next smaller even one, and the images are half a pixel off, in opposite directions on the two sides.", "quantifier": "for every number of pixels across the pupil, binning, separation, detector size that fits, every field in the pupil, every quadrant and pixel", "why_tests_cant": "Two independent pieces of geometry, in phases and in pixels, must agree for all sizes; a test of one configuration with an even separation sees nothing.", "anchors": ["soapy/wfs/pyramid.py:Pyramid.calcPyramidMask", "soapy/wfs/pyramid.py:Pyramid.calcDetectorMask", "soapy/wfs/pyramid.py:calcPhaseScreenTipTilt"]}
{"id": "C118", "title": "The pyramid sensor has no preferred direction", "statement": "A wavefront turned upside down, left to right, or with rows and columns exchanged gives the detector image turned the same way, and the slopes accordingly: `Xslopes` change sign upside down, `Yslopes` left to right, and the two are exchanged with rows and columns. With a flat wavefront the four pupil images are equally bright and the slopes add up to zero. Pupil symmetric and zero or one, at least 32 modulation points (a multiple of four for mirroring), no read noise.", "quantifier": "for every array size, binning, apex angle, modulation amplitude, number of modulation points as stated, symmetric binary pupil and wavefront, every content of the buffers", "why_tests_cant": "Off-centre by half an element anywhere (centring ramp, apex, FFT shifts, modulation points starting at 45 degrees) would break it, and a test would need a tolerance that hides it.", "anchors": ["soapy/wfs/pyramid.py:Pyramid.calcFocalPlane", "soapy/wfs/pyramid.py:Pyramid.calcCentroidMask", "soapy/wfs/pyramid.py:Pyramid.calcTipTiltModulationsPoints", "soapy/wfs/pyramid.py:Pyramid.calcModulationMatrix", "soapy/wfs/pyramid.py:Pyramid.calculateSlopes"]}
{"id": "C119", "title": "Reported Strehl ratios and wavefront errors fit together", "statement": "The figures of merit a science camera reports are consistent with each other. With tip-tilt, without oversampling and cropping, `instStrehl` is the mean cosine of the phase differences over all pairs of lit elements, so it is 1 exactly for a phase that is constant up to whole waves, and at least `1 - (2π WFE / λ)²`; the value without tip-tilt is never smaller. With an oversampling of b it is at least `1 - 2 b (2π WFE / λ)`. Without cropping, `longExpStrehl` with tip-tilt is the mean of the frames' `instStrehl`, and without tip-tilt it is at most that mean. This is about the wavefront error of the phase the camera samples. `calc_wavefronterror` uses the phase and mask of the simulation instead, and the camera samples up to one pixel beyond the pupil: a frame may report a wavefront error of 0 and a Strehl ratio of 9/25.", "quantifier": "for every number of pixels, aperture that fits into the FFT, zero-one mask (any non-negative mask where stated), phase, sequence of frames, oversampling and wavelength", "why_tests_cant": "The two numbers are computed on different grids by different code (an FFT, a maximum and two normalisations; a sum of squares); the relation is an inequality for all phases, and a test with smooth phase stays far from where it fails.", "anchors": ["soapy/scienceinstrument.py:PSFCamera.calcInstStrehl", "soapy/scienceinstrument.py:PSFCamera.calc_wavefronterror", "soapy/scienceinstrument.py:PSFCamera.calcFocalPlane"]}
{"id": "C120", "title": "Physical propagation agrees with geometric propagation where nothing diffracts", "statement": "With `propagationMode = Physical`, light is neither lost nor gained on the way through any layers; if all layers are at the ground the field equals that of geometric propagation for all screens and mirrors; without turbulence plane light stays plane for all altitudes; a layer without turbulence below the highest one changes nothing; and a mirror conjugated to a layer with the shape of that layer removes it, as it does geometrically.", "quantifier": "for every number of pixels, wavelength, pixel scale, screens, mirror shapes and list of ascending altitudes (light: any altitudes)", "why_tests_cant": "The field is the outcome of a chain of Fourier transforms; a test with turbulence has no reference value, and agreement for one profile says nothing about others.", "anchors": ["soapy/lineofsight.py:LineOfSight.makePhasePhys", "soapy/lineofsight.py:LineOfSight.performCorrection", "soapy/lineofsight.py:LineOfSight.frame", "soapy/lineofsight.py:physical_atmosphere_propagation"]}
{"id": "C121", "title": "The recorded phase is that of the field in both propagation modes", "statement": "`phase` and `residual` of a line of sight describe the wavefront that arrives, in physical propagation as in geometric propagation, so that the sensors which work on `phase` (Gradient, Pyramid, Zernike) see the turbulence.", "quantifier": "for every turbulence, mirror shape and altitude", "why_tests_cant": "Runs in physical mode give plausible numbers (the mirrors are in them); that they do not depend on the turbulence is a statement about all turbulence.", "anchors": ["soapy/lineofsight.py:LineOfSight.makePhasePhys", "soapy/lineofsight.py:LineOfSight.frame", "soapy/wfs/gradient.py:Gradient.calcFocalPlane", "soapy/wfs/pyramid.py:Pyramid.calcFocalPlane", "soapy/wfs/zernike.py:Zernike.integrateDetectorPlane"]}
{"id": "C122", "title": "Photon and read noise have no bias and the configured size", "statement": "On average a pixel of the sensor's detector shows its share of the guide star's photons, with or without noise; its variance is the number of photons expected in it with photonNoise, plus eReadNoise squared; pixels are independent. All pixels together hold the photons of the guide star, Poisson distributed with photon noise only. For the pyramid sensor photonNoise has no effect.", "quantifier": "Any image, number of pixels, number of photons and options; any probability space on which numpy.random draws independent Poisson and normal numbers.", "why_tests_cant": "A test can only compare averages over some frames with a tolerance; mean, variance, independence and law of the total for any image are facts about the distribution.", "anchors": ["soapy/wfs/shackhartmann.py:ShackHartmann.readDetectorPlane", "soapy/wfs/shackhartmann.py:ShackHartmann.addPhotonNoise", "soapy/wfs/shackhartmann.py:ShackHartmann.addReadNoise", "soapy/wfs/pyramid.py:Pyramid.addReadNoise"]}
{"id": "C123", "title": "angleEquivNoise is the error of each measurement in arc seconds", "statement": "With angleEquivNoise each measurement, as an angle, is normally distributed about the measurement without noise with that standard deviation in arc seconds, independently of the others, and interaction-matrix frames have none of it. This holds for the Shack-Hartmann sensor; the gradient sensor scales it to pixels though its slopes are in arc seconds (a factor of 2 with default options), the pyramid sensor ignores it, and with removeTT the noise is added after the removal and leaves a mean slope.", "quantifier": "Any slopes, options with at least one pixel and non-zero field of view, any number of sub-apertures, any probability space with independent normal draws.", "why_tests_cant": "The size of noise is a statement about a distribution and about units; a test with one draw cannot tell a standard deviation, and no test compares sensors.", "anchors": ["soapy/wfs/shackhartmann.py:ShackHartmann.calculateSlopes", "soapy/wfs/gradient.py:Gradient.calculateSlopes", "soapy/wfs/pyramid.py:Pyramid.calculateSlopes"]}
{"id": "C124", "title": "iMatValue is only the unit of the commands", "statement": "iMatValue says how far an actuator moves for a command of one. Multiplying it by a number (per mirror) keeps the same actuators, multiplies the rows of the interaction matrix, and, once the control matrix is divided accordingly, leaves every correction and every measurement of every frame as it was; only the commands are numbers in another unit. numpy's pinv divides accordingly if all mirrors get the same number, or if no two commands look alike and nothing is dropped; otherwise the choice of iMatValue decides which mirror is used at all.", "quantifier": "The loop: any sensors, atmosphere, noise, exceptions, gains, modes, delays and frames, any non-zero numbers. Calibration: any mirrors and linear sensors. Inversion: any matrix and any singular value decomposition.", "why_tests_cant": "It compares two simulations with different configurations for all inputs, frame by frame; and whether the inversion respects units is a statement about all matrices.", "anchors": ["soapy/DM.py:DM.__init__", "soapy/DM.py:DM.makeDMFrame", "soapy/reconstruction.py:Reconstructor.make_dm_iMat", "soapy/reconstruction.py:MVM.calcCMat", "soapy/reconstruction.py:Reconstructor.reconstruct", "soapy/simulation.py:Sim.loopFrame"]}
{"id": "C125", "title": "svdConditioning limits which modes are corrected and how much noise is amplified", "statement": "The control matrix does not depend on the decomposition that the linear algebra library returns. Commands given to the mirrors and measured come back as their orthogonal projection on the modes whose singular value exceeds svdConditioning times the largest; the others are never excited by any measurement; no measurement is amplified by more than the inverse of that threshold; of all commands in the kept modes those reconstructed explain the measurements best. With 0 it is the pseudo-inverse, with 1 or more nothing is corrected. In the closed loop a dropped mode never appears in the commands if all mirrors have the same gain, but does if gains differ.", "quantifier": "Any interaction matrix, any singular value decomposition of it, any conditioning of at least zero, any measurements; any run of the loop with any sensors and atmosphere.", "why_tests_cant": "Tests compare one matrix with numbers computed by the same library; bounds, projection and independence of the decomposition are statements about all matrices, and absence of a mode in every frame is an invariant of the loop.", "anchors": ["soapy/reconstruction.py:MVM.calcCMat", "soapy/reconstruction.py:Reconstructor.reconstruct", "soapy/reconstruction.py:Reconstructor.apply_gain", "soapy/confParse.py:ReconstructorConfig"]}
{"id": "C126", "title": "The whole loop is linear in the turbulence", "statement": "A simulation whose sensors measure linearly and without noise answers to a weighted sum of turbulences with the weighted sum of its answers: commands, measurements, the corrections that sensors and cameras see, and the saved histories, in every frame. So the answer is the sum of the answers to each layer and each frame alone, the mean answer over realisations is the answer to the mean turbulence, and without turbulence nothing moves.", "quantifier": "Any mirrors, sensors' directions and heights, control matrix, delay, number of frames, gains and modes that may change from frame to frame, any turbulences and weights for which the single runs do not raise an exception.", "why_tests_cant": "It relates three runs with different inputs through all the memory of the loop (integrator, delay line, kept surfaces, histories); a test can compare a few numbers of a few frames.", "anchors": ["soapy/simulation.py:Sim.loopFrame", "soapy/simulation.py:Sim.runDM", "soapy/simulation.py:DelayBuffer.delay", "soapy/reconstruction.py:Reconstructor.reconstruct", "soapy/reconstruction.py:Reconstructor.apply_gain", "soapy/DM.py:DM.dmFrame", "soapy/lineofsight.py:LineOfSight.frame"]}
{"id": "C127", "title": "A configuration written out with dict() and read again is the same configuration", "statement": "dict(config) holds every parameter of every object with the value in use and no calculated one. Given to the loader as the content of a YAML file it yields the same configuration, with the same sensors, lasers, mirrors and cameras and the same calculated parameters. Two loaded configurations with the same dict() are the same.", "quantifier": "All configurations loaded from Python or YAML files, any number of sensors (with and without lasers), mirrors and cameras, all parameter values; all classes whose calculation settles, and the calculation of confParse.py itself for all numbers.", "why_tests_cant": "The round trip involves defaults, columns or rows, calculated values written back over parameters (exposure times, diameters, outer scales, fields of view) and lasers nested in sensors; a test sees one file.", "anchors": ["soapy/confParse.py:PY_Configurator.__iter__", "soapy/confParse.py:PY_Configurator.__len__", "soapy/confParse.py:ConfigObj.__iter__", "soapy/confParse.py:ConfigObj.__len__", "soapy/confParse.py:ConfigObj.__getitem__", "soapy/confParse.py:ConfigObj.loadParams", "soapy/confParse.py:YAML_Configurator.loadSimParams"]}
{"id": "C128", "title": "The order in which layers, mirrors and sensors are listed does not matter", "statement": "Two configurations that list the same layers, mirrors (with their gains and modes) and sensors in different orders make the same simulation: calibration keeps the same actuators and measures the same interaction matrix with its blocks of rows in the order of the mirrors and its blocks of columns in the order of the sensors; pinv with any conditioning gives the control matrix in the other order; and in every frame of the loop commands, measurements and the corrections seen by sensors and science cameras are the same, block by block. If one runs without an exception so does the other.", "quantifier": "All numbers of layers, mirrors and sensors and all orders of each (three independent permutations), all mirrors and linear sensors of any sizes, all conditionings, all gains, modes (also changing from frame to frame), delays, turbulence and numbers of frames.", "why_tests_cant": "Offsets into the flat vectors of commands and measurements are recomputed in half a dozen places (makeIMat, apply_gain, runDM, runWfs, pinv); a test fixes one order and one pair of sizes, and equal sizes hide swapped blocks.", "anchors": ["soapy/simulation.py:Sim.loopFrame", "soapy/simulation.py:Sim.runDM", "soapy/simulation.py:Sim.runWfs_noMP", "soapy/simulation.py:Sim.makeIMat", "soapy/reconstruction.py:Reconstructor.makeIMat", "soapy/reconstruction.py:Reconstructor.make_dm_iMat", "soapy/reconstruction.py:Reconstructor.apply_gain", "soapy/reconstruction.py:Reconstructor.reconstruct", "soapy/reconstruction.py:MVM.calcCMat", "soapy/lineofsight.py:LineOfSight.makePhaseGeometric"]}
{"id": "C129", "title": "The header of a saved file describes the run", "statement": "Every file that a simulation writes carries a FITS header which tells, for the moment the file is written: telescope diameter and obscuration, frame rate, numbers of mirrors, commanded actuators, sensors, measurements, sub-apertures, layers and frames, heights and wind speeds of the simulated layers, grids, types, conditioning and gains of the mirrors, positions, grids and pixel scales of the sensors. Any name of the simulation can be used.", "quantifier": "All configurations (any numbers of layers, mirrors, sensors), all names, all sequences of gain changes, moved guide stars and calibrations between initialisation and saving.", "why_tests_cant": "The header is made once and copied into files written much later; a test that compares it with the configuration right after initialisation agrees by construction and does not see that wind was rescaled, actuators were dropped or a gain was changed.", "anchors": ["soapy/simulation.py:Sim.makeSaveHeader", "soapy/simulation.py:Sim.initSaveData", "soapy/simulation.py:Sim.aoinit", "soapy/simulation.py:Sim.makeIMat", "soapy/atmosphere.py:atmos.__init__", "soapy/gui/gui.py:GUI.gainChanged"]}
{"id": "C130", "title": "A Shack-Hartmann sensor has no preferred axis", "statement": "If the wavefront and the pupil are transposed, a Shack-Hartmann sensor gives the same measurements with the two axes exchanged: the x measurement of sub-aperture (y, x) is what the y measurement of sub-aperture (x, y) was and vice versa, with or without removal of tip and tilt; a frame raises exactly if the transposed frame does.", "quantifier": "All wavefronts of at least 2 x 2 pixels, all pupils (also not square), all grids, oversizes, guard pixels, oversamplings and thresholds, all centroiders that treat both axes alike.", "why_tests_cant": "An exchange of x and y anywhere between interpolation and centroiding is invisible to tests with the usual symmetric wavefronts (flat, defocus) and tests of one axis; the proof covers every wavefront.", "anchors": ["soapy/wfs/shackhartmann.py:ShackHartmann.calcFocalPlane", "soapy/wfs/shackhartmann.py:ShackHartmann.integrateDetectorPlane", "soapy/wfs/shackhartmann.py:ShackHartmann.readDetectorPlane", "soapy/wfs/shackhartmann.py:ShackHartmann.calculateSlopes", "soapy/wfs/shackhartmann.py:ShackHartmann.getStatic", "soapy/wfs/shackhartmann.py:findActiveSubaps", "soapy/numbalib/wfslib.py:zoomtoefield", "soapy/numbalib/wfslib.py:place_subaps_on_detector", "soapy/wfs/wfs.py:WFS.simple_frame"]}
{"id": "C131", "title": "With a field stop a sub-aperture measures only its own piece of the wavefront", "statement": "With subapFieldStop the measurements of a sub-aperture depend only on the phase in front of it: an aberration elsewhere in the pupil, however strong, and a piston of the sub-aperture itself leave them unchanged. A piston of the whole wavefront changes no measurement of any sensor.", "quantifier": "All pairs of wavefronts that agree (up to a constant) on the pixels a sub-aperture reads, all sensors with field stop without removal of tip and tilt; the piston: all sensors.", "why_tests_cant": "The detector is normalised to the flux of the guide star, so every pixel depends on the light of all sub-apertures; that the normalisation is the same for every wavefront needs the energy theorem of the FFT, not a sample of wavefronts.", "anchors": ["soapy/wfs/shackhartmann.py:ShackHartmann.calcFocalPlane", "soapy/wfs/shackhartmann.py:ShackHartmann.integrateDetectorPlane", "soapy/wfs/shackhartmann.py:ShackHartmann.readDetectorPlane", "soapy/wfs/shackhartmann.py:ShackHartmann.calculateSlopes", "soapy/wfs/shackhartmann.py:ShackHartmann.getStatic", "soapy/wfs/shackhartmann.py:findActiveSubaps", "soapy/numbalib/wfslib.py:zoomtoefield", "soapy/numbalib/wfslib.py:place_subaps_on_detector", "soapy/wfs/wfs.py:WFS.simple_frame", "soapy/confParse.py:WfsConfig"]}
{"id": "C132", "title": "Without noise the brightness of the guide star does not matter", "statement": "If no noise is simulated, the measurements of a Shack-Hartmann sensor do not depend on the magnitude of the guide star, zero point or exposure time (the number of photons), nor on a grey filter over the whole pupil.", "quantifier": "All positive numbers of photons and filters, all sensors and wavefronts of at least 2 x 2 pixels, all centroiders that do not depend on the brightness of an image.", "why_tests_cant": "Tests compare two magnitudes at best; a threshold in counts, or an order of normalisation and noise-free read-out that lets the flux through, shows up only at some magnitudes.", "anchors": ["soapy/wfs/shackhartmann.py:ShackHartmann.calcFocalPlane", "soapy/wfs/shackhartmann.py:ShackHartmann.integrateDetectorPlane", "soapy/wfs/shackhartmann.py:ShackHartmann.readDetectorPlane", "soapy/wfs/shackhartmann.py:ShackHartmann.calculateSlopes", "soapy/wfs/shackhartmann.py:ShackHartmann.getStatic", "soapy/wfs/shackhartmann.py:findActiveSubaps", "soapy/numbalib/wfslib.py:zoomtoefield", "soapy/numbalib/wfslib.py:place_subaps_on_detector", "soapy/wfs/wfs.py:WFS.simple_frame", "soapy/wfs/shackhartmann.py:photons_per_mag"]}
{"id": "C133", "title": "Sub-apertures that are lit alike measure alike, and removeTT hides tilts", "statement": "With a field stop, two sub-apertures with the same illumination give the same measurement whenever the phase in front of them is the same up to piston; in particular a tilt of the wavefront, of any size and direction, gives the same measurement in all of them. If all sub-apertures are lit alike, removeTT makes all measurements of a tilted wavefront zero.", "quantifier": "All sensors with field stop, all wavefronts of at least 2 x 2 pixels, all tilts, all pairs of sub-apertures, all centroiders that look only at the pixels of their sub-aperture.", "why_tests_cant": "Every sub-aperture has its own corner in the field, place on the detector and window for centroiding, each rounded in its own way; a test looks at some sub-apertures of some grids.", "anchors": ["soapy/wfs/shackhartmann.py:ShackHartmann.calcFocalPlane", "soapy/wfs/shackhartmann.py:ShackHartmann.integrateDetectorPlane", "soapy/wfs/shackhartmann.py:ShackHartmann.calculateSlopes", "soapy/wfs/shackhartmann.py:findActiveSubaps", "soapy/numbalib/wfslib.py:zoomtoefield", "soapy/confParse.py:WfsConfig"]}
{"id": "C134", "title": "A long exposure measures the mean of its frames", "statement": "If a Shack-Hartmann sensor with field stop and centre-of-gravity centroiding has an exposureTime of several frames (no noise, no laser uplink), the frames in between return zeros and the frame that ends the exposure returns the mean of the measurements the frames would give one by one. Without field stop the result lies between the least and the greatest of them. With any centroider a steady wavefront gives the same in an exposure of any length as in one frame, and the order of the frames in an exposure does not matter. One exposure does not influence the next.", "quantifier": "All sensors, all lists of exposures of any lengths, all wavefronts of at least 2 x 2 pixels; the mean for all sensors with field stop, with and without removeTT.", "why_tests_cant": "The focal planes are kept over frames that are not read while the detector collects them again and again and is cleared just before it is read; a test compares one exposure with one mean.", "anchors": ["soapy/wfs/wfs.py:WFS.frame", "soapy/wfs/shackhartmann.py:ShackHartmann.calcFocalPlane", "soapy/wfs/shackhartmann.py:ShackHartmann.integrateDetectorPlane", "soapy/wfs/shackhartmann.py:ShackHartmann.readDetectorPlane", "soapy/wfs/shackhartmann.py:ShackHartmann.zeroData", "soapy/wfs/shackhartmann.py:ShackHartmann.getStatic", "soapy/confParse.py:WfsConfig"]}
{"id": "C135", "title": "An exposure collects all its frames, whatever the type of sensor", "statement": "If the exposureTime of a sensor covers several frames, all of them contribute to the measurement: an exposure of two frames gives the mean of what the two frames give. This holds for the Shack-Hartmann sensor (C134) and fails for the gradient and the pyramid sensor, which measure the last frame of the exposure only.", "quantifier": "All gradient and pyramid sensors, all lists of exposures of any lengths, all wavefronts.", "why_tests_cant": "With the default exposureTime of one frame, or with a wavefront that does not change, nothing is wrong; the frames that are lost show only if exposure and turbulence go together.", "anchors": ["soapy/wfs/wfs.py:WFS.frame", "soapy/wfs/gradient.py:Gradient.calcFocalPlane", "soapy/wfs/gradient.py:Gradient.calculateSlopes", "soapy/wfs/pyramid.py:Pyramid.calcFocalPlane", "soapy/wfs/pyramid.py:Pyramid.calculateSlopes", "soapy/simulation.py:Sim.runWfs_noMP"]}
{"id": "C136", "title": "The user decides how much a run tells", "statement": "A run shows exactly the messages of at most the level the user asked for: 3 with -d, n with -V n, otherwise the verbosity of the configuration file; a log file gets the same messages behind what it held. True for scripts that use the library. The program soapy fails with -V and any number, ignores -d once the run starts (outside the GUI), and ignores the verbosity of the configuration file.", "quantifier": "All options, configurations, messages of a run, and states of the logger left by earlier runs.", "why_tests_cant": "The level in force changes several times between the command line and the loop; a test looks at one message under one setting.", "anchors": ["bin/soapy:runCmdSim", "soapy/logger.py:_printMessage", "soapy/logger.py:setLoggingLevel", "soapy/logger.py:setLoggingFile", "soapy/simulation.py:Sim.readParams", "soapy/simulation.py:Sim.aoinit", "soapy/gui/gui.py:GUI.__init__", "soapy/gui/gui.py:start_gui"]}
{"id": "C137", "title": "Everything that looks in the same direction sees the same wavefront", "statement": "A sensor and a science camera (or two of either) with the same direction and height see the same optical path in every pixel and in every frame, whatever their wavelengths and histories; the residual wavefront in nm and the reported wavefront error are the same. The residual without a correction breaks this: it is in radians, not in nm.", "quantifier": "All directions, heights, wavelengths, screens, corrections, output scales and sizes, both directions of propagation, geometric mode.", "why_tests_cant": "The wavelength enters in several places (field, phase, correction, residual); agreement for one pair of wavelengths does not show that it cancels everywhere.", "anchors": ["soapy/lineofsight.py:LineOfSight.frame", "soapy/lineofsight.py:LineOfSight.makePhaseGeometric", "soapy/lineofsight.py:LineOfSight.performCorrection", "soapy/lineofsight.py:LineOfSight.calcInitParams", "soapy/scienceinstrument.py:PSFCamera.calc_wavefronterror"]}
{"id": "C138", "title": "Larger screens change nothing, and turbulence outside the beams is not seen", "statement": "If the screens become larger on both sides (because a target further out was added), and the turbulence in the beams of the sensors is the same, then the interaction matrix, the actuators kept, all measurements and all commands of a run are the same, and the corrections agree where the smaller screens were. The turbulence outside the beams (further than a pixel from every sample) has no influence at all. Adding a science target to a configuration with a guide star changes nothing but the size of the screens, by an even number of pixels.", "quantifier": "All numbers of layers, mirrors and sensors, all directions and heights, mirrors smaller or larger than the screens, all margins, control matrices, gains, delays, lengths of run and turbulence; geometric propagation, linear sensors without noise, beams that end at least 1e-9 pixel inside the screens.", "why_tests_cant": "The size of the screens enters into coordinates, clipping, padding or cropping of mirrors and all arrays; a run with one pair of sizes says nothing about the others or about all turbulence outside the beams.", "anchors": ["soapy/confParse.py:PY_Configurator.calcParams", "soapy/lineofsight.py:LineOfSight.calculate_altitude_coords", "soapy/DM.py:DM.dmFrame", "soapy/reconstruction.py:Reconstructor.make_dm_iMat", "soapy/simulation.py:Sim.loopFrame"]}
{"id": "C139", "title": "Phase screens kept on disk bring back the same turbulence", "statement": "Saving writes the screen of every layer to a file of its own and never overwrites a file; it succeeds exactly if the directory exists, no such file exists and the atmosphere has stored screens (infinite screens cannot be saved). A simulation that loads the files of an atmosphere hands out, in every frame, the same screens (rounded to single precision) as that atmosphere from its first frame. Files are accepted exactly if all of them hold squares of one size that is large enough. Screens made beforehand are returned, written and used with one factor for their strength.", "quantifier": "All screens, sizes, numbers of layers, winds, strengths, directories, earlier contents of the disk, and moments of saving.", "why_tests_cant": "What happens depends on all earlier contents of the directory and on the frame in which it is saved; tests look at one directory and one set of screens.", "anchors": ["soapy/atmosphere.py:atmos.saveScrns", "soapy/atmosphere.py:atmos.__init__", "soapy/atmosphere.py:makePhaseScreens"]}
{"id": "C140", "title": "No axis and no direction is preferred", "statement": "Exchange the two axes of everything in a simulation (turbulence, guide star positions, launch positions, influence functions, weights of the sensors), reverse one axis, or turn it all by quarters of a turn: the same interaction matrix is measured, the same actuators are kept, and in every frame of the loop the sensors measure and the mirrors are commanded the same, while the corrections appear turned. A gradient sensor with transposed sub-apertures reports the slopes of the two axes in exchanged places; with mirrored sub-apertures it reports the slopes along the reversed axis with the other sign. For reversal the samples have to end a little (a thousand-millionth of a pixel) inside the screens.", "quantifier": "All geometries (heights, positions, finite sources, upward or downward), mirrors whose size has the parity of the screens, linear sensors, turbulence, control matrices, gains, delays and numbers of frames; all compositions of the two generators.", "why_tests_cant": "A sign or an exchanged axis anywhere between the screens and the commands is invisible on symmetric test cases, and on asymmetric ones there is nothing to compare with.", "anchors": ["soapy/lineofsight.py:LineOfSight.calculate_altitude_coords", "soapy/lineofsight.py:LineOfSight.calcInitParams", "soapy/DM.py:DM.dmFrame", "soapy/simulation.py:Sim.aoloop", "soapy/wfs/gradient.py:Gradient.calculateSlopes"]}
{"id": "C141", "title": "A run that is interrupted can be continued", "statement": "`aoloop` catches Ctrl-C and can be called again; the run should go on as if it had not been stopped. It does if the interrupt falls between two frames, and the records of completed frames always stay. An interrupt within a frame leaves the frame half done and its number is done again: the turbulence has moved on, the sensors and cameras may have been exposed, and the same measurements are integrated a second time.", "quantifier": "All histories of calls of `loopFrame`, each complete or interrupted after any of its statements; all mirrors, delays, sensors, turbulence.", "why_tests_cant": "A test would have to raise the interrupt at each statement and compare with the undisturbed run; which part of the state was already advanced depends on the place.", "anchors": ["soapy/simulation.py:Sim.loopFrame", "soapy/simulation.py:Sim.aoloop"]}
{"id": "C142", "title": "The turbulence above the telescope does not depend on the field of view", "statement": "Adding a science target (or a guide star) to a simulation with a seed, or with stored screens, should leave the turbulence above the telescope, and so the loop, as it was. It does if the target lies within the field already covered, and the cameras themselves never disturb the loop. A target further out enlarges the screens, and since the window starts at a corner of the stored screen, all of the turbulence above the telescope is displaced by half of the growth.", "quantifier": "All configurations with a guide star, all targets; all stored screens, window sizes, whole-pixel winds, frames and pixels.", "why_tests_cant": "Two configurations have to be compared pixel by pixel at the same place above the telescope, over all frames and wind directions.", "anchors": ["soapy/confParse.py:PY_Configurator.calcParams", "soapy/atmosphere.py:atmos.__init__", "soapy/atmosphere.py:atmos.moveScrns", "soapy/simulation.py:Sim.runSciCams"]}
{"id": "C143", "title": "Only ratios of lengths and of times matter", "statement": "A telescope twice as large, looking through layers twice as high of turbulence with twice the Fried parameter, with wind twice as fast, is the same simulation: derived sizes, beams on layers and mirrors, kept actuators, commands and corrections are the same in every frame, and slopes are the same in the new unit. The same holds for times: with loop and exposure times (and the coherence time) longer by a factor and winds slower by it, turbulence moves as far per frame and every sensor is read in the same frames.", "quantifier": "All configurations, factors, geometries, linear sensors, mirrors, control matrices, turbulence and numbers of frames.", "why_tests_cant": "Two simulations of different size have to be compared in every intermediate quantity and frame; a test compares numbers of one system.", "anchors": ["soapy/confParse.py:PY_Configurator.calcParams", "soapy/lineofsight.py:LineOfSight.calculate_altitude_coords", "soapy/atmosphere.py:atmos.__init__", "soapy/atmosphere.py:InfinitePhaseScreen.__init__", "soapy/simulation.py:Sim.runWfs_noMP", "soapy/wfs/gradient.py:Gradient.calcInitParams"]}
{"id": "C144", "title": "The GUI shows what the simulation does", "statement": "The levels common to all pictures of phase are the lowest and highest value in any of them. During a run the progress bar stays between 0 and 100, does not go back and is full after the last frame; the frame number shown is that of the frame; the remaining time is what the remaining frames will take if all take equally long, also for a continued run. Cameras, and runs one after the other, have curves of different colours. A gain set in the GUI is the gain the loop uses for that mirror from then on, and no other gain changes.", "quantifier": "All pictures, numbers of frames, frame times, numbers of cameras up to seven and sequences of actions.", "why_tests_cant": "There are no tests of the GUI; what it shows depends on histories of runs and of configurations being replaced.", "anchors": ["soapy/gui/gui.py:GUI.getPlotScaling", "soapy/gui/gui.py:GUI.progressUpdate", "soapy/gui/gui.py:StatsThread.run", "soapy/gui/gui.py:GUI.updateStrehls", "soapy/gui/gui.py:GUI.gainChanged", "soapy/gui/gui.py:GUI.readParamFile", "soapy/logger.py:statusMessage", "soapy/simulation.py:Sim.printOutput"]}
{"id": "C145", "title": "The version number identifies the program", "statement": "soapy.__version__ tells which program ran: in a checkout it is TAG[+DISTANCE.gHEX[.dirty]], and two checkouts with the same version number are the same commit with both or neither changed; it is a plain release number exactly for an unchanged checkout of that release. An archive of a release reports the same number as its checkout, and a source directory named after a release reports that release.", "quantifier": "All tags without a plus sign (whatever hyphens and digits they contain), distances, commit names, archives with one version tag and directories.", "why_tests_cant": "Parsing has to be right for every tag name and injectivity compares every pair of checkouts; there are no tests of this file.", "anchors": ["soapy/_version.py:get_versions", "soapy/_version.py:git_pieces_from_vcs", "soapy/_version.py:render_pep440", "soapy/_version.py:plus_or_dot", "soapy/_version.py:git_versions_from_keywords", "soapy/_version.py:versions_from_parentdir"]}
{"id": "C146", "title": "Watching a run does not change it", "statement": "Science cameras, whether measurements and commands are recorded and how many frames are kept have no influence on a run: turbulence, measurements, commands, mirrors and corrections are the same in every frame, also if frames are interrupted, and recording cannot make a run fail that would go on without. The same holds for sensors the command matrix has zeros for: they can be replaced by any others with as many measurements without effect on the rest.", "quantifier": "All systems, atmospheres, sensors, cameras, control matrices, numbers of frames, interruptions and initial states.", "why_tests_cant": "Non-interference compares two runs of different systems in every frame; a test sees one system.", "anchors": ["soapy/simulation.py:Sim.loopFrame", "soapy/simulation.py:Sim.runSciCams", "soapy/simulation.py:Sim.storeData", "soapy/simulation.py:Sim.addToGuiQueue", "soapy/reconstruction.py:Reconstructor.reconstruct"]}
{"id": "C147", "title": "What the wavelengths matter to", "statement": "Slopes of gradient sensors are in arc seconds: changing the wavelength of any of them changes no measurement, hence neither the interaction matrix nor the actuators kept nor any command, surface or record of a run, whatever turbulence and control matrix, also if frames fail. A science camera sees the same wavefront with a Strehl ratio (with tip-tilt) that does not decrease towards longer wavelengths, as long as no two lit elements differ by more than half a wavelength; beyond that it can.", "quantifier": "All geometries, masks, sub-apertures, non-zero wavelengths per sensor, mirrors, control matrices, screens, numbers of frames; all masks and wavefronts for the Strehl ratio.", "why_tests_cant": "An independence of a parameter compares two runs for all inputs; a test compares numbers for one pair of wavelengths.", "anchors": ["soapy/wfs/gradient.py:Gradient.calcInitParams", "soapy/lineofsight.py:LineOfSight.calcInitParams", "soapy/simulation.py:Sim.aoloop", "soapy/scienceinstrument.py:PSFCamera.calcFocalPlane"]}
{"id": "C148", "title": "Later turbulence is answered later", "statement": "A simulation that sees nothing in its first frames and a turbulence afterwards does nothing in these frames and then, frame by frame, what it would have done if the turbulence had begun at once: same commands, measurements and corrections for sensors and cameras. So with constant gains and modes it is known from its answers to flashes: what it does in frame i is the sum over the frames k up to i of what it does i - k frames after a flash of what was seen in frame k.", "quantifier": "All geometries, gradient sensors, mirrors, control matrices, delays, gains and modes (also changing ones for the first part), numbers of quiet frames and turbulences.", "why_tests_cant": "Compares runs of different lengths for all turbulences; tests run one simulation.", "anchors": ["soapy/simulation.py:Sim.aoloop", "soapy/simulation.py:Sim.loopFrame", "soapy/simulation.py:DelayBuffer.delay", "soapy/reconstruction.py:Reconstructor.reconstruct"]}
{"id": "C149", "title": "What is not used changes nothing", "statement": "Adding to a simulation mirrors of gain zero (in closed or open loop), sensors whose rows of the control matrix are zero for the other mirrors, and layers without turbulence changes nothing in what the others do: in every frame commands, measurements and corrections for sensors and cameras are the same, the additional mirrors stay flat, and no exception is raised that was not raised before. Layers can also be divided, joined and reordered: only the sum of the turbulence at each altitude matters. The responses recorded for the other mirrors are the same too.", "quantifier": "All geometries, linear sensors, mirrors, control matrices, delays, gains and modes changing from frame to frame, turbulences, numbers of additional parts and of frames.", "why_tests_cant": "Compares two runs of any length for all turbulences and configurations.", "anchors": ["soapy/simulation.py:Sim.loopFrame", "soapy/simulation.py:Sim.runDM", "soapy/reconstruction.py:Reconstructor.apply_gain", "soapy/lineofsight.py:LineOfSight.makePhaseGeometric"]}
{"id": "C150", "title": "Light takes the same way up and down", "statement": "A line of sight used upwards (a laser) and downwards (a star) through the same turbulence and mirrors: the launched light summed at the source is the star light summed over the launch aperture, with any turbulence, altitudes in ascending order, any shape of the mirrors and any aperture; a frame works in one direction exactly if it works in the other. A mirror with the shape of the ground layer removes it from the light, in both directions and whatever lies above. In geometric propagation the phases are the same in both directions.", "quantifier": "All screens, mirrors, numbers and altitudes of layers, apertures, source heights and grids with balanced frequencies (even numbers of pixels).", "why_tests_cant": "Compares two different sequences of operations (order of the layers, mirrors first or last, mask first) for all turbulences; equality of single values would need reference data for each.", "anchors": ["soapy/lineofsight.py:LineOfSight.frame", "soapy/lineofsight.py:physical_atmosphere_propagation", "soapy/lineofsight.py:LineOfSight.performCorrection", "soapy/LGS.py:LGS.getLgsPsf"]}
{"id": "C151", "title": "How actuators are grouped into mirrors does not matter", "statement": "Several mirrors at the same altitude, with the same mode and gain, can be given as one mirror with all their actuators: the interaction matrix is the same, and with the same control matrix every frame has the same commands, measurements and saved histories and, at every altitude, the same correction for sensors and cameras. This needs that no actuator is dropped in the calibration of the one mirror; then none is dropped from the single mirrors. Without it the grouping matters: an actuator is dropped if its answers are below a thousandth of the largest of its own mirror.", "quantifier": "All numbers of mirrors, groupings, influence functions, sensors, control matrices, gains, modes (also changed during the run), delays, turbulences and numbers of frames.", "why_tests_cant": "Relates two different configurations over whole runs; the number of groupings is unbounded, and slots of the correction arrays and slices of the command vector are numbered differently in the two.", "anchors": ["soapy/reconstruction.py:Reconstructor.makeIMat", "soapy/reconstruction.py:Reconstructor.make_dm_iMat", "soapy/reconstruction.py:Reconstructor.apply_gain", "soapy/simulation.py:Sim.runDM", "soapy/simulation.py:Sim.aoloop", "soapy/DM.py:DM.dmFrame"]}
{"id": "C152", "title": "A precompensated laser goes up through the mirrors as they are", "statement": "With `precompensated`, the laser of a sensor is launched in every frame through the shape of the mirrors that is removed from its returning light in the same frame, and through no mirror in frames without a correction; without `precompensated` it is never launched through a mirror. A ground layer that the mirror has the shape of then does not disturb the laser.", "quantifier": "All sequences of calibrations, learning frames, loop frames, resets, initialisations and frames run by scripts with arrays they change in place; all shapes.", "why_tests_cant": "The laser keeps a reference to an array that others change in place, so what it is launched through depends on everything done before; only histories of unbounded length show it.", "anchors": ["soapy/wfs/wfs.py:WFS.frame", "soapy/LGS.py:LGS.getLgsPsf", "soapy/wfs/shackhartmann.py:ShackHartmann.applyLgsUplink", "soapy/simulation.py:Sim.runDM", "soapy/reconstruction.py:LearnAndApply.learn"]}
{"id": "C153", "title": "A correlating sensor measures how far each image is from its reference", "statement": "ExtendedSH with a reference image: if the image of each sub-aperture is its reference displaced by some pixels, of any brightness and on any even background, the measurement of that sub-aperture is the displacement, whatever the reference (as long as it shows where it is), the number of sub-apertures and correlationFFTPad; a displaced image displaces the correlation image; a reference for all sub-apertures, for one, or for the whole detector gives each sub-aperture its piece, and a reference of another shape is refused.", "quantifier": "for all numbers of sub-apertures, sizes, references, displacements, brightnesses, backgrounds, paddings and centroiders that find the brightest pixel", "why_tests_cant": "no test makes an ExtendedSH; a test with one displacement and a symmetric reference in one sub-aperture would pass, and the exchange of sub-apertures does not show when all are displaced alike", "anchors": ["soapy/wfs/extendedshackhartmann.py:ExtendedSH.makeCorrelationImgs", "soapy/wfs/extendedshackhartmann.py:ExtendedSH.calculateSlopes", "soapy/wfs/extendedshackhartmann.py:ExtendedSH.referenceImage"]}
{"id": "C154", "title": "Noise in the measurements of a whole simulation adds to the lag as the error budget says", "statement": "In the self-calibrated simulation of C111 with noise added to its measurements in the loop (angleEquivNoise), the run completes whatever numbers are drawn; each command differs from the command of the run without noise by an amount that depends on the noise, gain, delay and control matrix only and not on the turbulence; if the noise is of mean zero and uncorrelated between frames and measurements, the mean of every command is that of the run without noise, and its mean square error is the square of the lag of the run without noise plus the noise of the measurements weighted with the squares of the control matrix, times a factor that depends on gain, delay and frame only. Without delay the factor tends to g/(2-g); for every delay it stays bounded exactly for the gains for which the loop is stable.", "quantifier": "for all optics, mirrors, control matrices that undo the interaction matrix, gains, delays, turbulence, numbers of frames and noise", "why_tests_cant": "statement about averages over all draws and about runs of any length; a test sees one draw", "anchors": ["soapy/wfs/gradient.py:Gradient.calculateSlopes", "soapy/wfs/shackhartmann.py:ShackHartmann.calculateSlopes", "soapy/simulation.py:Sim.aoloop", "soapy/reconstruction.py:Reconstructor.reconstruct"]}
{"id": "C155", "title": "A wavefront that the mirrors can make is removed for the science cameras in every direction", "statement": "In the self-calibrated simulation of C111, with every mirror conjugated to a layer: if what the layers show is what the mirrors would make with some commands, the control matrix finds these commands from the measurements alone; in every run what a science camera sees, in any direction on or off the axes of the sensors, looking at any altitude, is in each pixel the sum over the actuators of the lag of the command times a fixed number. So if the layers stand still and all gains are stable for the delay, the phase of every camera, and the wavefront error that it reports, come and stay as close to zero as one likes, and the Strehl ratio with tip-tilt as close to one; if the layers move, what the camera sees stays below a constant times the change per frame, whatever the turbulence and the length of the run.", "quantifier": "for all optics, mirrors, control matrices that undo the interaction matrix, stable gains, delays, commands, camera positions and wavelengths, and numbers of frames", "why_tests_cant": "statement about all directions, all turbulence in the span of the mirrors, and the limit of arbitrarily long runs; a test looks at one camera after a fixed number of frames", "anchors": ["soapy/scienceinstrument.py:PSFCamera.frame", "soapy/scienceinstrument.py:PSFCamera.calc_wavefronterror", "soapy/lineofsight.py:LineOfSight.frame", "soapy/lineofsight.py:LineOfSight.calculate_altitude_coords", "soapy/simulation.py:Sim.aoloop", "soapy/DM.py:DM.dmFrame"]}
{"id": "C156", "title": "What a camera sees is what the mirrors leave, the same for all gains and delays, plus the lag of the commands", "statement": "In the self-calibrated simulation of C111, with every mirror conjugated to a layer, and any turbulence at all: what a science camera sees in each frame and pixel is the sum of a part of the turbulence of this frame that is the same for all gains, delays, noise and histories, and of the lags of the commands times fixed numbers. That part is linear in the turbulence, nothing for turbulence that the mirrors can make, and equal to what the camera would see without mirrors less the reconstructed commands times the same numbers. If the layers stand still, what the camera sees comes and stays as close to that part as one likes for all stable gains, and so does the wavefront error that it reports; so two still atmospheres that differ by something the mirrors can make look the same in the end.", "quantifier": "for all optics, mirrors, control matrices that undo the interaction matrix, gains, delays, noise, turbulence, camera positions and wavelengths, and numbers of frames", "why_tests_cant": "statement about all turbulence and the limit of arbitrarily long runs, for all gains and delays at once; tests compare single numbers of single runs", "anchors": ["soapy/scienceinstrument.py:PSFCamera.frame", "soapy/scienceinstrument.py:PSFCamera.calc_wavefronterror", "soapy/lineofsight.py:LineOfSight.frame", "soapy/simulation.py:Sim.aoloop", "soapy/reconstruction.py:Reconstructor.reconstruct", "soapy/DM.py:DM.dmFrame"]}
{"id": "C157", "title": "Open-loop and closed-loop mirrors of one simulation do not disturb each other", "statement": "In a self-calibrated simulation (C111) some mirrors may be in closed and some in open loop. With a control matrix that undoes the interaction matrix of all of them, the commands that a mirror is given do not depend on the mode and gain of the others: the same turbulence and noise give the same commands in every frame. A closed-loop mirror follows its component of the turbulence as if it were alone; an open-loop mirror is given the weighted mean of its component, late by the delay. The sensors measure the turbulence less the closed-loop mirrors; cameras see it less all mirrors. If the layers stand still, closed-loop gains are stable and open-loop gains lie between 0 and 2, then, whatever the delay, what a camera sees comes and stays as close as one likes to the same part of the turbulence for every choice of modes. Noise reaches the commands of an open-loop mirror with the fraction g/(2-g) of its variance.", "quantifier": "for all optics, mirrors, control matrices that undo the interaction matrix, modes and gains of every mirror, delays, noise, turbulence, camera positions and wavelengths, and numbers of frames", "why_tests_cant": "independence of the other mirrors is a statement about pairs of runs for all configurations, and the limit one about arbitrarily long runs; tests run single configurations, in which all mirrors have one mode", "anchors": ["soapy/reconstruction.py:Reconstructor.apply_gain", "soapy/reconstruction.py:Reconstructor.reconstruct", "soapy/simulation.py:Sim.runDM", "soapy/simulation.py:Sim.loopFrame", "soapy/confParse.py:DmConfig"]}
{"id": "C158", "title": "A control matrix that does not control everything works on what it controls", "statement": "The control matrix of a simulation often does not undo the interaction matrix: conditioning drops weakly seen modes, and combinations of actuators (such as piston) may be invisible to the sensors. A pseudo-inverse finds its own commands again whatever singular values it drops (P M P = P). With such a control matrix and one gain and mode for all mirrors (or for those actuators that it mixes), the loop does what it does with a perfect one: in closed loop every command follows what the control matrix reconstructs from the measurements that would be made without mirrors, late by the delay; in open loop it is its weighted mean. If the layers stand still and the gain is stable, commands come and stay as close as one likes to the reconstructed ones, the measurements to something of which the control matrix reconstructs nothing, and what a camera sees to a part of the turbulence that is linear in it, the same for all gains and delays and both modes, and nothing for turbulence that the mirrors make with commands that the control matrix can give.", "quantifier": "for all optics, mirrors, interaction matrices of any rank, control matrices with P M P = P, conditionings, gains, delays, noise, turbulence, cameras and numbers of frames", "why_tests_cant": "statement about all ranks and conditionings and about the limit of arbitrarily long runs; tests run one configuration for a few frames and look at single numbers", "anchors": ["soapy/reconstruction.py:MVM.calcCMat", "soapy/reconstruction.py:Reconstructor.reconstruct", "soapy/reconstruction.py:Reconstructor.apply_gain", "soapy/simulation.py:Sim.loopFrame"]}
{"id": "C159", "title": "A loop with sensors that expose several frames, and exactly which gains it stands", "statement": "Sensors whose exposure time is several loop times are read only when the exposure is over; in all other frames they return zeros, and the integrators keep their commands. In closed loop with a control matrix that undoes the interaction matrix, every command is then a staircase with steps of one exposure: in frame i it is what it was after (i - d) / e complete exposures of e frames with loop delay d, and each step is the gain times the mean (Shack-Hartmann) or the last (gradient, pyramid) of what was left of the component in the frames of the exposure, the mirror moving during the exposure when the delay is not a multiple of it. Sensors that take the last frame give the loop of C110 with the delay rounded down to exposures; a still aberration is removed exactly for the gains stable with that delay. Sensors that average remove it whenever g <= 1 and g d < e, and for d <= e exactly if 0 < g, g d < e and g (e - 2 d) < 2 e; every gain below 1 will do if the delay is not longer than the exposure.", "quantifier": "for all exposures, delays, gains, weights of the frames of an exposure, turbulence, sensor noise, mirrors and numbers of frames", "why_tests_cant": "limits of arbitrarily long runs, over all pairs of exposure time and delay; tests use sensors that are read in every frame", "anchors": ["soapy/simulation.py:Sim.runWfs_noMP", "soapy/wfs/wfs.py:WFS.frame", "soapy/reconstruction.py:Reconstructor.reconstruct", "soapy/simulation.py:Sim.loopFrame"]}
{"id": "C160", "title": "Sensors of different speed in one loop", "statement": "Every sensor has its own exposure time; a sensor that is not read puts zeros where its measurements belong. In closed loop, if every actuator is fed only by sensors of one speed (as a slow tip-tilt sensor with its own mirror beside fast ones), every command is the staircase of its own speed (C159), whatever the others do, although all sensors see all mirrors. If an actuator is fed by sensors of different speed, the control matrix does not keep its weights: after any number of frames in which all exposures are complete every command is its gain times what the control matrix makes of the sums over all frames with every sensor divided by the number of frames of its exposure, so that a loop whose commands stay bounded drives that combination of mean measurements to zero, and not the one the control matrix stands for: two equally weighted sensors that see 0 and 3 make a command of 3/2 if they are equally fast, and one that never exceeds 8/7 if the second exposes two frames.", "quantifier": "for all exposures of all sensors, delays, gains, control matrices, turbulence, mirrors and numbers of frames; the last clause for one system and runs of any length", "why_tests_cant": "the weights of the sensors show only in means over long runs, and for every pair of exposure times differently; tests use one sensor that is read in every frame", "anchors": ["soapy/simulation.py:Sim.runWfs_noMP", "soapy/wfs/wfs.py:WFS.frame", "soapy/reconstruction.py:Reconstructor.reconstruct", "soapy/simulation.py:Sim.loopFrame"]}
{"id": "C161", "title": "The old line of sight reads the right part of a screen", "statement": "`lineofsight_legacy.LineOfSight` reads from every screen the part the star is seen through: centred where the ray to the star meets the layer, as wide as the cone of light there, only points on the screen, and the middle of the screen pixel by pixel for a star on axis at infinity; it reads what the current line of sight reads. A direction given to it (`apos`) is used.", "quantifier": "for all star positions and heights, layers, pixel scales, screens and numbers of pixels", "why_tests_cant": "half pixels, cones and the order of axes only show for some combination of sizes and positions, and the module is not imported by any test", "anchors": ["soapy/lineofsight_legacy.py:LineOfSight.getMetaPupilPhase", "soapy/lineofsight_legacy.py:LineOfSight.getMetaPupilPos", "soapy/lineofsight_legacy.py:LineOfSight.calcMetaPupilSize", "soapy/lineofsight_legacy.py:LineOfSight.findMetaPupilSizes"]}
{"id": "C162", "title": "The old line of sight gives turbulence less correction", "statement": "A geometric frame of the old line of sight gives the phase of the layers less that of the corrections, whatever was done before, and the same in `phase` and in the field; a mirror with the shape of a layer at the altitude of the layer leaves a flat wavefront; what `frame` returns has one unit.", "quantifier": "for all layers, mirrors, altitudes, stars, directions and earlier states", "why_tests_cant": "signs, units and altitudes cancel in the on-axis, one-layer cases tests use", "anchors": ["soapy/lineofsight_legacy.py:LineOfSight.frame", "soapy/lineofsight_legacy.py:LineOfSight.makePhaseGeometric", "soapy/lineofsight_legacy.py:LineOfSight.performCorrection"]}
{"id": "C163", "title": "Physical propagation of the old line of sight covers the whole path", "statement": "In physical propagation of the old line of sight the light travels in total the distance between start and end, and meets every layer at its own altitude; upwards the phase has the sign it has in geometric propagation.", "quantifier": "for every ascending list of layer altitudes and every star", "why_tests_cant": "any set of distances gives a plausible speckled field; the module is not imported by any test", "anchors": ["soapy/lineofsight_legacy.py:LineOfSight.makePhasePhys"]}
{"id": "C164", "title": "A loop with a control matrix that does not fit", "statement": "A closed loop with a control matrix that does not undo its interaction matrix (loaded from an earlier run, measured at another sensitivity, a misplaced mirror) runs to the end, and its commands follow what the mirrors can make as long as the mismatch is small: if for every actuator what should come back and does not, and what should not and does, adds up to at most ε and ε + g d (1 + ε) < 1, what is left of a still aberration goes to zero and that of a moving one stays within a bound. A sensor that answers γ times what it did at calibration has the effect of γ times the gain. Actuators that are taken for each other make the loop diverge at every gain.", "quantifier": "for all optics with linear sensors, control matrices, gains, delays, atmospheres, noise and lengths of run", "why_tests_cant": "stability against a wrong matrix is a statement about all frames and all matrices; a test that runs a few frames with the matrix it has just made never has a mismatch", "anchors": ["soapy/simulation.py:Sim.aoloop", "soapy/simulation.py:Sim.loopFrame", "soapy/reconstruction.py:Reconstructor.loadCMat", "soapy/reconstruction.py:Reconstructor.reconstruct", "soapy/reconstruction.py:Reconstructor.makeIMat"]}
{"id": "C165", "title": "A vibration leaves a vibration of the same frequency", "statement": "A stable loop answers a vibration of any frequency, amplitude and phase, after the start, with a vibration of the same frequency; the factor is z^d (z - 1) / (z^d (z - 1) + g) with z = exp(i ω), d the delay and g the gain. Exactly the vibrations with 4 sin((d + 1/2) ω) sin(ω / 2) < g are reduced; slow ones to at most 2 |ω| / g; a vibration of 2 (2 d + 1) frames is amplified by every stable loop, by L / (L - g), L the limit of stability. Over all frequencies the logarithm of the amplitude left averages zero, whatever the stable gain and the delay: what is taken away at some frequencies comes back at others, and a loop that leaves at most ρ up to the frequency θ amplifies some vibration by nearly ρ^(-θ/(π-θ)) or more. For errors of measurement it averages the logarithm of the gain. Turbulence that repeats itself makes commands that repeat themselves, and whose mean is that of what the control matrix reconstructs. Errors of measurement leave the same factor minus one. The error of a command over a long exposure of any bounded turbulence adds up to at most a constant, however long the exposure.", "quantifier": "for all stable gains, delays, frequencies, amplitudes, phases, deviations from a vibration, periods, and for the whole simulation all optics with linear sensors and calibrated matrices", "why_tests_cant": "a frequency response is a statement about the limit of infinitely many frames at a continuum of frequencies; a test runs one frequency for some frames", "anchors": ["soapy/simulation.py:Sim.aoloop", "soapy/simulation.py:Sim.loopFrame", "soapy/simulation.py:DelayBuffer.delay", "soapy/DM.py:DM.dmFrame", "soapy/reconstruction.py:Reconstructor.reconstruct"]}
{"id": "C166", "title": "Turbulence against noise: what a gain leaves, and the best gain", "statement": "If what the control matrix reconstructs from the turbulence walks at random (uncorrelated steps of variance v per frame) and is measured with uncorrelated noise of variance s2, the mean square error of every command in frame n is the sum of a part of the start, a part of the walk and a part of the noise, given by what the loop leaves of a step. It stays bounded exactly for stable gains. Without delay it settles at (v + g^2 s2)/(g (2 - g)), with a delay of one frame at (v + g^2 s2)(1 + g)/(g (1 - g)(2 + g)). Without delay exactly one gain leaves least: the one with s2 g^2 = v (1 - g), which leaves v/g. With a delay of d frames no gain leaves less than (d + 1) v.", "quantifier": "for all gains, delays, variances, starts and numbers of frames, over all finite probability spaces; for the whole simulation all optics with linear sensors and a control matrix that undoes the interaction matrix", "why_tests_cant": "expectations over all draws and limits of long runs; a test sees one draw of a few frames and cannot tell whether another gain would have been better", "anchors": ["soapy/simulation.py:Sim.aoloop", "soapy/simulation.py:Sim.loopFrame", "soapy/reconstruction.py:Reconstructor.reconstruct", "soapy/reconstruction.py:Reconstructor.apply_gain", "soapy/DM.py:DM.dmFrame"]}
