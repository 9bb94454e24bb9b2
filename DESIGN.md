# Formal model of soapy in Lean 4 — design

The code verified is the Python package in `/repo/soapy` (AOtools/soapy, pinned commit).  The code is
only read; it is not run.  Everything below is a *hand-written* model: each Lean definition cites the
file and lines it transcribes and says where it simplifies.

## Layout

* `properties.jsonl` – the properties (C01 …), in terms of the API and its observable effects.
* `lean/Verif/Model/*.lean` – the model, function by function.
* `lean/Verif/Spec/*.lean` – small specifications that do not use the model (where the specification
  is more than a formula, it is here; otherwise it is written out in the theorem).
* `lean/Verif/Props/*.lean` – property theorems; beside each one an `example` instantiates the hypotheses
  on a concrete non-trivial case.  Helper lemmas live in `lean/Verif/Lemmas/*.lean` or in the model files.
* `MANIFEST.json` – property → theorem names and status.
* `seeded/LOG.jsonl` – mutation tests of the model.

## Trusted base

* Lean 4.33.0 kernel, and Mathlib definitions (ℚ, ℝ, `Finset.sum`, `Real.rpow`, …).
* Axioms: only `propext`, `Classical.choice`, `Quot.sound` (standard).  No `sorry`, no own axioms, no
  `native_decide`, no `bv_decide`.  `#print axioms` on every property theorem shows nothing else.
* The transcription Python → Lean (by hand, cited line by line).
* Meaning given to library calls: numpy slicing/`roll`/`arange`/`zeros`, Python `round` (banker's),
  `int` (truncation), list `pop(0)`/`append`, dict lookup, `threading`/`queue` primitives.  The semantics
  used are written in `lean/Verif/Model/Py.lean` or in the model file.

## What is not modelled

* IEEE floating point: float32/float64 are replaced by exact ℤ/ℚ/ℝ.  Where the result is robust against
  rounding the theorem is stated for an arbitrary function with the needed property.
* FFTs, pseudo-inverses, centroiders, random numbers, aotools routines: arbitrary functions (parameters).
* GUI rendering, plotting, FITS encoding, timing.
* Code found to be unusable as written is not modelled as if it worked; see "Findings".

## Properties: what is modelled and how it is proved

* **C01 Loop delay of d frames is exactly d frames** — model DelayBuffer.delay as a pure list machine; induction over the call history against the index specification `if n<d then 0 else xs[n-d]`.
* **C02 Delay buffer under a changing delay never replays or reorders commands** — same machine; invariant: buffer = suffix of the pushed history; emitted indices strictly increase.
* **C03 In-place command updates cannot corrupt delayed commands** — heap model with object references; refinement to the value-level delay machine by an invariant (references in buffer are pairwise distinct and the live reference is not in the buffer).
* **C04 reset_loop gives a clean start of the command pipeline** — violated for delay >= 1: kernel-checked witness; `_partial` theorem for delay 0 and exact characterisation of the stale commands that emerge.
* **C05 Sensor read-out cadence follows the exposure time** — frame-counter automaton; invariant wfsFrameNo = floor(nT/E), proved for any monotone quantiser whose steps are <= 1 (hence for float rounding with that property) and for exact rationals.
* **C06 Read-out cadence restarts after reset_loop** — violated when E > T: the frame counter is not reset; witness, plus `_partial` theorem for E <= T and an exact statement of what happens after a reset.
* **C07 Multi-process and single-process sensor scheduling agree** — both automata modelled; counterexample for E > T (frame 0 always read in MP); `_partial` theorem for E <= T and for all later frames once counters agree.
* **C08 An exposure contains every frame exactly once** — state machine (focal-plane accumulator, detector, slopes); induction over frames; spec = sum of list segment since last read.
* **C09 Measurement vector layout** — offset computation modelled; equality with list concatenation proved.
* **C10 Closed-loop mirrors integrate, open-loop mirrors low-pass** — apply_gain modelled over rationals; closed forms and invariants by induction.
* **C11 Gain and control mode apply mirror by mirror** — slice-loop modelled on one flat vector; proved equal to blockwise spec (concatenation of per-mirror updates).
* **C12 No measurement, no motion** — composition of read logic, zero slopes, matrix-vector product and apply_gain; n-step induction.
* **C13 Mirror surface is the superposition of its actuator shapes** — vectors over rationals; linearity and zero mean.
* **C14 Commands stay attached to the right actuator after dropping dead actuators** — two-pass compaction loop modelled index by index; equality with filtered list; refinement lemma for surface = sum over physical actuators.
* **C15 Mirror output always has the size of the phase screen** — Python slice and banker's rounding arithmetic modelled; violated for odd size difference (witness), `_partial`: exact iff condition.
* **C16 Sensors see closed-loop mirrors only, the science camera sees every mirror once** — two correction buffers modelled; invariant by induction; witness of stale shape if the mode is toggled mid-run.
* **C17 Causality of the control loop** — loop as a state machine over an arbitrary plant and controller; non-interference by induction.
* **C18 Recorded history is the last nIters frames** — buffer update machine; induction against latest-congruent-frame specification.
* **C19 Final summary reports the last frame** — Python negative indexing modelled; equality with row of frame n-1; behaviour for 0 frames stated.
* **C20 Interaction matrix survives a save/load round trip** — abstract file system with named files; save and load modelled statement by statement; round trip by case analysis and list lemmas.
* **C21 A mismatching saved interaction matrix is rejected without side effects** — rejection proved for header mismatches; violated for side effects: final shape check comes after mirrors were filtered (witness); `_partial`.
* **C22 A crash while saving cannot make a later run use a mixed matrix** — crash semantics = any prefix of the write list; safe from an empty directory (proved); violated over an old save of the same shape (witness); `_partial`.
* **C23 A saved command matrix is reused only for the configuration it was made for** — load check modelled; never-true `dmNo != dmNo` check; witnesses: matrix saved after dropping actuators is rejected, stale full-size one accepted; `_partial` for the nothing-dropped case.
* **C24 Atmosphere window never leaves the screen** — per-axis position machine over rationals; invariant for both directions.
* **C25 Frozen flow** — roll + position machine; exact for integer per-frame displacement (induction); violated for fractional displacement (witness: fraction lost at each wrap); `_partial` with per-wrap error bound < 1 pixel.
* **C26 Infinite screens advance by the wind distance** — accumulator machine; induction over rationals; negative speed witness.
* **C27 Total turbulence strength is the configured r0** — real powers in Mathlib; algebra of rpow and finite sums.
* **C28 Requested coherence time is obtained** — rpow algebra, effective wind speed homogeneous of degree 1.
* **C29 Interpolation is safe and faithful** — pixel formula over rationals with explicit index bounds.
* **C30 Line-of-sight coordinates are always inside the screen** — clip arithmetic over rationals with interpolation bounds.
* **C31 Geometric line of sight is additive and memoryless** — object state modelled incl. phase, EField, residual; frame proved independent of the old state; permutation invariance; the unit inconsistency of the returned residual is shown as a witness.
* **C32 Cone effect geometry** — coordinate formula over rationals; see module for the exact statement (layers above the source are skipped or not).
* **C33 Physical propagation covers the whole path** — trace of (propagate z | apply screen i) events; induction over the layer list; upward to infinity case stated.
* **C34 Screens are large enough for every line of sight** — size formula over rationals; proved for guide stars and non-negative science positions; witness for a negative science position; `_partial`.
* **C35 Derived parameters are stable under recalculation** — calcParams as a function on a record; idempotence theorem; defaults proved sticky (exposure time keeps the first loop time).
* **C36 Configuration loading accounts for every parameter** — association-list model; decision-logic theorem (iff) + value theorem + round trip through dict(config).
* **C37 Detector binning conserves flux** — double-sum reindexing over an arbitrary commutative monoid.
* **C38 In-place FFT shift** — sequential in-place swap loop modelled; involution for every size; equality with fftshift for even sizes; odd witness.
* **C39 Parallel loops are schedule independent** — generic theorem: writes to disjoint cells that read no written cell commute, for any interleaving; instantiated for each kernel; the kernel whose iterations may overlap is discussed.
* **C40 Sub-apertures tile the pupil** — rounded-boundary arithmetic; partition theorem; selection = filter theorem.
* **C41 Slopes are referenced and tip-tilt can be removed** — post-processing pipeline modelled over rationals.
* **C42 Photon flux normalisation** — real powers + sum normalisation.
* **C43 Sub-aperture images land on their own detector pixels** — slice arithmetic; holds iff pixel count even or no oversize; odd witness; round-trip theorem.
* **C44 FFT padding search terminates with the least adequate oversampling** — while loop modelled with fuel-free well-founded recursion; least-solution theorem; non-termination witness for 0 pixels.
* **C45 Science image is the normalised sum of all frames** — accumulator machine over rationals; induction.
* **C46 Wavefront error is a proper norm** — variance computation over reals.
* **C47 At most one loop thread, save only after it ended** — labelled transition system with interleaving; invariant; `_partial` for a single controlling thread, witness for concurrent starts and for an exception in the loop.
* **C48 The loop runs exactly the configured number of frames** — loop with interruption oracle; induction.
* **C49 One plot update per GUI request** — flag + queue machine; invariant on queue length vs number of requests.
* **C50 Logging obeys the level** — decision table; print_ witness (does not always print).
* **C51 Pyramid measurements are flux independent and bounded** — quadrant algebra over rationals.
* **C52 Gradient sensor is linear and piston free** — mean of differences over sub-apertures; telescoping.
* **C53 Laser launch geometry** — formula over reals; boundary values; affine.
* **C54 Process-split FFT covers every row once** — strided split/merge modelled; equality with map.
* **C55 Interaction-matrix pokes are noise free and leave settings unchanged** — save/modify/restore modelled with exceptions; witness that an exception leaves them modified.
* **C56 Learn & Apply learns with the right sensor blocks** — offset arithmetic; holds iff all earlier sensors have equal size (witness otherwise).
* **C57 Pupil mask has the simulation size** — shape-level model; padding arithmetic.
* **C58 A reset loop behaves like a fresh one** — resetLoop on the loop state; proved for delay 0 (simulation between reset and fresh state); violated for delay >= 1 because the delay buffer is kept (witness).
* **C59 Stored phase screens are reloaded at their strength** — header and load factor over the reals, rpow algebra.
* **C60 Science camera arrays fit together** — natural-number arithmetic on the sizes; proved for even cropping, violated for odd cropping (witness family).
* **C61 Elongated beacon layers are observed along the launched beam** — closed form compared with straight-line geometry over the rationals; proved on axis, violated for every off-axis guide star.
* **C62 The pyramid image depends only on the current frame** — binning with an explicit left-over buffer; proved when every point of the buffer is written, violated otherwise (witness).
* **C63 Shifted focal planes are centred and keep their order** — index map compared with the standard shift; mirrored for even sizes (proved), not centred (violated for every even size), mirrored back by the uplink code (proved).
* **C64 Zooming keeps shape and corners** — sampling points over the rationals, spline as an arbitrary function on the plane; proved for real square arrays, violated for complex and rectangular ones.
* **C65 Making the interaction matrix twice gives the same matrix** — Mirror/Persist model run twice; proved when no actuator is dropped, raises otherwise (witness).
* **C66 Mirror blocks of the interaction matrix are the mirror's own** — offset arithmetic on lists of rows; proved when earlier mirrors dropped nothing, violated otherwise (witness).
* **C67 Separate reconstructor keeps mirrors apart** — block matrix built on lists; pseudo-inverse an arbitrary function of the block; violated for mirrors with dropped actuators or without own sensor.
* **C68 A tomographic reconstructor survives a restart** — two sessions over the Persist model; the saved matrix is always rejected; same result when nothing was dropped, exception otherwise (witness).
* **C69 Tomographic control law** — reconstruct over the rationals; proved without a tip-tilt mirror in front; with one, gains, modes and previous commands are ignored (violated).
* **C70 Laser tomography removes tip and tilt of the laser sensors** — reconstruct as written; the code cannot run (proved); the tilt removal subtracts one mean for x and y (proved), right only for equal x and y tilt.
* **C71 Laser uplink blurs each frame's light once** — frame machine with per-frame additive uplink; closed form for every exposure pattern; proved for one-frame exposures, violated for longer ones (witness).
* **C72 Poke responses do not depend on what ran before** — frame machine; proved for every history ending with a read-out, violated otherwise (witness).
* **C73 Noise in the interaction matrix follows the option** — pokeSensor over the frame machine; settings restored and noise-free proved; option without effect proved for every sensor (violated).
* **C74 Every mirror type shows its shapes centred on the screen** — shapes of each type as lists of arrays, spline and mode functions arbitrary; centring through dmFrame for even size differences; violated for odd differences, for a stack mirror exactly as large as the screen (AttributeError) and for one a pixel larger (accepts every command and never moves: proved).
* **C75 A tip-tilt command of one is one arcsecond** — two coordinate shapes; pixel step, edge-to-edge height, means and scalar product over the rationals; the unit is right only if the mirror has the telescope's diameter (iff proved).
* **C76 FastPiezo shows what Piezo shows** — both modelled over an arbitrary linear spline; equality proved for even size differences (up to piston if the mirror sticks out of the screen); violated for equal sizes.
* **C77 Missing data stay out of interpolated custom shapes** — floats as rationals or NaN; set of interpolated points characterised; proved for numeric missing values and equal sizes, violated for NaN (NaN differs from itself), for images that are not square and for enlarged ones (border is zero).
* **C78 Actuators form a regular grid on the mirror** — positions from the sampling of the spline; grid, spacing and symmetry proved; on the mirror iff border times gaps is less than the elements (violated for 10 actuators on 15 elements); Gaussian stack centred iff mirror is as large as the pupil.
* **C79 The closed loop removes a static aberration** — the complete loop model (sense, reconstruct, delay buffer, mirrors) is shown to follow the scalar recursion e(n+1) = e(n) - g e(n-d) for every mode; then analysis of that recursion: for every delay the exact limit of stability, from the roots of z^d (z-1) = -g (`Lemmas/Stable.lean`: no root outside the unit circle below the limit, Gelfand's formula for the powers of the companion map; a root outside keeps a combination of the last d+1 values from vanishing).
* **C80 A measurement that is not a number does not stay in the loop** — floats as rationals or NaN; proved for Shack-Hartmann sensors; the check in the base class throws its result away, the pyramid sends NaN when dark, and one NaN makes every command of every mirror NaN in all later frames until a reset (proved), also through the delay buffer.
* **C81 A flat wavefront gives spots in the middle of the sub-apertures** — field, tilt correction, FFT, shift and binning over the complex numbers; centre of symmetry computed for every configuration; centred iff the field of view is one element less than the elements (even) or FFT size is 3 mod 4 (odd); violated by every field-stop configuration with an even number of pixels.
* **C82 A tilt moves a spot by whole pixels, a piston does not** — shift theorem for the modelled FFT including the code's shift function and binning.
* **C83 The laser is focused at the beacon by a centred lens** — focus formula over the reals with an error bound against the spherical wave; position of the lens array with Python slices; centred iff the sizes have the same parity (violated otherwise).
* **C84 The laser spot has the scale of the sub-aperture image** — both scales over the reals; equal iff there is a field stop and no rounding; otherwise the laser spot is put on the image at twice its size.
* **C85 Layers of an elongated beacon get their own defocus and tilt** — path differences over the reals; zero iff heights agree, sign, tilt proved; amplitude violated for every other height: the added phase between centre and edge is twice the path difference (Zernike array divided by its maximum runs from -1 to 1).
* **C86 The Strehl ratio never exceeds one** — field, both in-place shifts (tied to the thread model of C38), FFT as an explicit sum, crop, binning, normalisation and maximum over the reals; Parseval's theorem and the triangle inequality give Strehl at most fftOversamp squared without cropping (at most 1 without oversampling, also for long exposures); piston and flat wavefronts for all sizes; violated with oversampling 2 (1.29) and with cropping (9/4), both configurations accepted by the size model.
* **C87 Light of a sub-aperture is proportional to its lit area** — Parseval's theorem for the modelled FFT, shift and binning; total light computed for every phase; violated: the mask takes the light away and the fill factor takes it away again, so light goes with the square of the lit part.
* **C88 The light of the pyramid does not depend on the phase** — Parseval's theorem twice, shift over all three axes as permutations; with every slot written the light is the pupil's; with fewer than 32 points the light of the unwritten slots is added (exact formula), and `intensity` scales the phase and not the light (violated).
* **C89 Every type of sensor can be made and used** — all methods of the seven classes as programs that assign, read, branch, loop, call and call super, with Python's method lookup, keyword checks and property setters; big-step semantics with free branches and loops; an interval analysis (attributes surely / possibly there) with two soundness proofs (every execution ends as it says; one exists), evaluated by the kernel for all configurations, and an invariant that carries it to every sequence of uses. The reads, writes and calls of each method were compared with the source by a script over its syntax tree.
* **C90 A calibrated simulation can be used in any order** — all methods of Sim, the mirrors, reconstructors and cameras as programs of a language with attributes, keyword checks, properties, free branches and loops and try/except (Model/Prog.lean, Model/Sys.lean); big-step semantics with an error that says what was missing. An abstract interpreter over attributes surely / possibly there and conditions known / unknown is proved sound in both directions (every execution ends as it says; one exists); the kernel evaluates it for sets of classes and settings. Errors are sorted by kind and each kind is excluded by runs that know only the settings that matter to it, so no enumeration of 2^27 settings is needed; an invariant carries the result to all sequences. `Supported` lists the settings that work; C90_exact proves that the list is exact. The reads, writes and calls of each method were compared with the source by a script over its syntax tree.
* **C91 Matrices from disk work like new ones** — as C90, with stories that begin with makeIMat(forceNew=False) and go on with any uses.
* **C92 Both file formats give the same configuration** — both loaders function by function over the model of loadParams (C36); the classes' calcParams are parameters. The relation "describe the same system" is stated parameter by parameter (Spec/Load.lean); a translation from rows to columns shows that it is never empty.
* **C93 What is loaded depends on the file alone** — a Python file as a program on the globals of confParse; sessions as sequences of loads.
* **C94 A number means the same in both file formats** — literals as sign, whole part, decimals and exponent; Python's and PyYAML's reading of them (the latter trusted: a float needs a point and a signed exponent); float() in calcParams.
* **C95 Every saved history holds the frames of the current run** — all nine histories of `storeData` with how each is made (zeros or uninitialised), cleared and indexed; proved for measurements, commands and long-exposure Strehl ratios; for the others the exact contents (not cleared by a reset, residual phases and laser images not initialised); the electric field is indexed with `self.iters` and raises after the last row. Assumes frames that raise nothing, which is shown when neither fields nor sensor frames are recorded.
* **C96 Sensor frames on disk are the frames of the run** — files of frames as a partial map; `fits.writeto` without `overwrite` raises if the file is there.
* **C97 Finished runs are never overwritten** — processes as machines whose steps interleave in any way (stamp, sleep, mkdir, mkdir of the parent, writing, end), `os.mkdir` atomic. Safety is shown for any clock and any time-stamp function; that every run gets a directory only for one process at a time. The matrices in the directory of the name itself are not part of this (C20-C23).
* **C98 Wind blows in the configured direction for both kinds of screens** — `Moves`: there is one fixed picture of which every frame shows a shifted part. Infinite screens at 0, 90, 180 and 270 degrees for any speed, away from the outermost two pixels; other angles for whole numbers of pixels per frame (else the two interpolations do not commute); finite screens for whole numbers of pixels along both axes, where the spline is exact. Cosine and sine are rationals with c²+s²=1.
* **C99 The same seed gives the same run** — three sources of random numbers: the atmosphere's generator shared by its layers, generators made from entropy (`default_rng(None)`), and numpy's global one, which all sensor noise uses. The generator algorithm, what aotools draws, and the rest of the system are parameters (functions of their state, the screens and the noise). The rest of the system is assumed to draw nothing else.
* **C100 The same seed gives the same turbulence to every system** — same model as C99; learning draws from the atmosphere's generator or moves its screens.
* **C101 Coupling into a single-mode fibre is an efficiency** — real and complex numbers, the Gaussian of aotools as written there, geometric propagation; `minimize_scalar` may return any size. The bound holds for any field of modulus at most one.
* **C102 A science camera sees phase and pupil at the same places and keeps its plate scale** — phase in waves as rational numbers, coordinates exact, the spline of `interp.zoom` only by the places where it is evaluated; images over the complex numbers, FFT sizes even.
* **C103 Convolved images keep their light, place and orientation** — complex numbers; FFTs as the sums pyfftw and scipy compute; the convolution theorem is proved. Real images, exact arithmetic.
* **C104 An FFT object gives the transform of what it is given, whatever library does the work** — arrays at places in memory; the transforms of the libraries and what FFTW leaves in its input are parameters. One axis, no rounding.
* **C105 Every way to bin, cut and place images gives the same** — rational pixels; numpy's broadcasting of slices, rounding of the factor and of the sizes are modelled; compiled kernels as in C37 and C39.
* **C106 The GUI does one job at a time and Stop stops** — a machine with the main thread and any number of worker threads; QThread.quit has no effect on threads without an event loop. What the threads compute is left out.
* **C107 What a frame returned stays what it was** — memory of places; every part returns a place; a run that keeps all results (`held`) is compared with what each result held when returned (`seenThen`), by induction over the run. Exact contents of all kept results for every part.
* **C108 A parameter that is left out has its documented default** — both tables, that of the code and that of the docstrings, transcribed for all eight classes; the theorems quantify over all files and all table entries, the comparison of the two finite tables is by evaluation in the kernel. Exceptions are listed exactly.
* **C109 A Shack-Hartmann sensor has the configured plate scale** — sampling of the phase on the field of all sub-apertures, cutting and FFT composed; the displacement of the image is proved exactly for every tilt that makes it a whole number of elements, and compared with the configured angle. Float32 rounding is left out.
* **C110 The closed loop follows a changing aberration, and errors of measurements stay bounded** — the loop model of C16/C79 with an aberration and sensor errors that depend on the frame; the recursion of what is left is proved from the run of the loop, the bounds by a window of 2 d + 1 frames. `Props/Response.lean` writes the answer to any course as a convolution with the answer to a step, shows that a step that settles does so geometrically (later values are combinations of earlier ones), and gets from this the exact range of gains for bounded answers and bounded noise.
* **C111 A simulation that calibrates itself corrects what its mirrors can make** — Model/Whole.lean puts Mirror (surfaces), Los (lines of sight), Persist.makeIMat (calibration) and Loop (the frames) together. A sensor is a weight of every pixel of its phase in every measurement (LinWfs); gradWfs is the gradient sensor. Props/Whole.lean shows that sensing is a linear map of the stack of screens and corrections, that the rows of the interaction matrix are the images of the shapes kept, and applies C110_loop. Props/WholeExact.lean extends the results to exactly the gains for which the loop is stable (C79_exact). Not covered: sensors that are not linear (Shack-Hartmann with images, pyramid), physical propagation, rotated mirrors.
* **C112 Moving turbulence keeps its strength** — `meanOf` is a mean over a finite probability space, `Stationary` says that the structure function of the stored pixels depends on the separation only. `C112_exact` computes the structure function after `outInf` (bilinear interpolation, which between two rows is a weighted mean of them) from the identity for a squared weighted mean; the amount lost is f(1-f) times a mean square, whence `C112_bounds`. `C112_frames_partial` composes it with `runInf` through `C26_rows_and_offset`, `C112_integer` and `C112_only_integer` decide for which winds the property holds. `C112_violated`: stripes blown by half a pixel per frame are flat in every second frame. Assumed, not proved: that `get_new_row` of aotools keeps the stored screen stationary. Only rational structure functions and finite probability spaces; the finite screens (cubic splines) are not covered.
* **C113 A parameter set before initialisation takes effect as if it were in the file** — `Edit` lists the assignments, `session` is load; set; calcParams, `fromFile` is load; calcParams. `calcParams_congr` says what the calculation depends on; `C113_exact_partial` decides every edit: equality iff not `Sticky` (both directions). `C113_fov_ignored`, `C113_remedy` (set the pixel scale to None first) and `C113_sodium` (the laser's calcParams is never run again) spell out the surprising cases. Not covered: the numbers of sensors, mirrors and cameras, and parameters that no calculation reads (they are stored and read later, so they are never stale).
* **C114 A guide star can be moved while the simulation runs** — `Pointing.Sight` holds the configuration, what `__init__` copies and what `calcInitParams` computes; `Op` lists what can happen between frames; frames are those of `Los.frame`. `C114_ignored`, `C114_recalc_partial` and `C114_reinit` together determine the frames after every sequence of operations on a sensor's line of sight; the last assigned values are spelled out independently (`lastPosition` ...). `C114_how_wrong` uses the exactness of the interpolation on tilts (C29) and the sum over layers (C31). Simplifications: geometric mode; `position` and `GSPosition` are values, so changing an element of the array in place (which changes both) is not covered.
* **C115 An infinite screen stays the turbulence it was made for, however long the simulation runs** — `Model/Rows.lean` has the separations of `calculate_seperations` over ℝ, the positions (stencil rows 0, 1, …, new row −1), the conditions on the matrices `A` and `B` and the recursion of the rows. The base class, which makes `A` and `B` from `seperations` and makes the new row, is in aotools and not in the repository: that `A cov_zz = cov_xz`, `B Bᵀ = cov_xx − A cov_zx` and that the row is `A z + B b` is assumed (trusted base), as is that the random numbers are uncorrelated with variance one. Random variables are elements of a real vector space, the mean of a product is a symmetric bilinear form. C115_rows is an invariant proved by strong induction over the newest row. C115_matrices: with an inverse of the stencil's covariance matrix the first condition holds. C115_start: a first screen without the model's covariances changes later rows only by what `A` alone carries on. C115_far: models that agree at the separations of the stencil give the same screens; C115_limit: for every depth there is a model whose covariance one row further is missed. Cutting the screen to `stencil_length` rows does not enter, since only the first `n_columns` rows are read.
* **C116 The pyramid sensor measures a flat wavefront as zero and does not see piston** — `Model/Pyr.lean` has the phases of pyramid, centring and modulation (`calcPhaseScreenTipTilt`), the FFT slots with what was left in them, frame and reference image over ℝ and ℂ, and the slopes as functions of the position in the pupil image (their order in the vector is C51). A piston multiplies each slot by a number of modulus one; the reference is a frame with piston one, not divided, and slopes do not depend on a factor. Witnesses on 2 × 2 elements, where the pyramid is flat.
* **C117 Each face of the pyramid sends the pupil onto its quadrant of the detector mask** — `C117_roof` and `C117_faces` compute the phase of every element; `C117_image_partial` is the shift theorem for the transforms of the model (with the `fftshift` of the spectrum and without one of the image), composed with binning. It is about a face covering the whole focal plane, as geometrical optics has it; the interference between the faces is not claimed. `C117_mask` connects `pupilAt` with `pupilRange` of `Model/Sensors.lean`.
* **C118 The pyramid sensor has no preferred direction** — `C118_convolution`: with the half-element ramp of `centroidMask` and the shifted spectrum, the field in the detector plane is the pupil field convolved along both axes with one even function (up to a phase). Mirroring the wavefront mirrors the modulation circle, which is a permutation of its points if their number is divisible by four; exchanging rows and columns permutes them for any number.
* **C119 Reported Strehl ratios and wavefront errors fit together** — `Model/Report.lean` puts the model of the image (`Psf`), of the sampling (`Plate`), of the sizes and of the wavefront error (`Science`) together into the pair a frame reports. The zero frequency of the shifted transform is the sum of the field; its square is a sum of cosines over pairs (`C119_pairs`), and `1 - x²/2 ≤ cos x` gives the bound with the variance. Oversampled images: each element of the focal plane moves by at most the mean absolute phase, and Cauchy-Schwarz over the elements of a pixel. The witness of `C119_violated` is a square pupil of four pixels with half a wave in the row after it.
* **C120 Physical propagation agrees with geometric propagation where nothing diffracts** — `Model/Physical.lean` runs the operations of C33 on complex fields. `aotools.angularSpectrum` is outside the repository; it is modelled by its definition for equal scales (transform, quadratic phase, transform back; distance 0 returns the input), with the frequencies left open. `Lemmas/AngularSpectrum.lean` proves that distances add up, that light is conserved (Parseval) and that plane waves stay plane. `descend` (Props/Physical.lean) is an independent description of the path from the highest layer to the ground.
* **C121 The recorded phase is that of the field in both propagation modes** — The same model as C120; `measure` in `C121_blind` stands for any sensor that is a function of `phase`.
* **C122 Photon and read noise have no bias and the configured size** — C122: `Noise.lean` models the end of the read-out with the drawn numbers as parameters; `Drawn` says what `numpy.random` promises (Poisson and standard normal laws, independence) and `drawn_exists` that this can be met. Mean and variance of the Poisson law are proved in `Lemmas/Poisson.lean`.
* **C123 angleEquivNoise is the error of each measurement in arc seconds** — C123: the noise part of `calculateSlopes` of the three sensors (`shSlopes`, `gradientSlopes` on the gradient model of C52, `pyramidSlopes`).
* **C124 iMatValue is only the unit of the commands** — C124: `Units.lean` models `iMatShapes *= iMatValue`; `C124_loop` is a bisimulation of `Loop.runLoop` for an arbitrary plant, `C124_whole` instantiates it with the whole simulation of C111.
* **C125 svdConditioning limits which modes are corrected and how much noise is amplified** — C125: `Pinv.lean` models `numpy.linalg.pinv` line by line over an arbitrary decomposition (`Svd`, the specification of `numpy.linalg.svd`, trusted). Independence of the decomposition is proved by writing the result as a polynomial in the matrix; that every matrix has a decomposition (so that nothing said for all decompositions is empty) is proved in `Lemmas/Svd.lean`.
* **C126 The whole loop is linear in the turbulence** — C126: no new model. `C126_loop` is an invariant over three runs of `Loop.runLoop` for any linear mirrors, reconstructor and plant (`LinearSys`, `LinearPlants`); `C126_sys` and `C126_plants` show that the simulation of C111 is such.
* **C127 A configuration written out with dict() and read again is the same configuration** — C127: `Dump.lean` models `dict(config)` on top of the loaders of `Load.lean`. The classes' calculations are a parameter with the hypotheses `Stands`; for the real calculation the last of them (`again`) is `C127_real_partial`, for the real lists of parameters the first three are `C127_tables`.
* **C128 The order in which layers, mirrors and sensors are listed does not matter** — C128: `Renumber.lean` relates two runs of `Loop.runLoop` whose vectors consist of the same blocks in another order (`RenV`), `RenumberOptics.lean` shows that the parts of `Whole.lean` (calibration, `pinv`, mirrors, sensors) satisfy its hypotheses. Only for the base reconstructor: LearnAndApply and WooferTweeter give the first sensor and the first mirrors a role of their own. Geometric propagation: physical propagation needs sorted layers (C33).
* **C129 The header of a saved file describes the run** — C129: `Model/Header.lean` has the cards of `makeSaveHeader` in order, written with overwriting as `fits.Header` does, and the steps that change what they speak about. Trusted: astropy refuses text which is not printable ASCII.
* **C130 A Shack-Hartmann sensor has no preferred axis** — C130: `Model/ShSensor.lean` puts the pieces (`SubapScale`, `Spot`, `Subaps`) together to a whole noise-free frame of a Shack-Hartmann sensor, from the phase of the line of sight to the vector of measurements, with static measurements and removal of tip and tilt. Trusted: AOtools' centroiders and fill factors are parameters; the theorems ask of the centroider only what they name, and the centre of gravity is shown to meet it.
* **C131 With a field stop a sub-aperture measures only its own piece of the wavefront** — C131: `Model/ShSensor.lean`, see C130.
* **C132 Without noise the brightness of the guide star does not matter** — C132: `Model/ShSensor.lean`, see C130.
* **C133 Sub-apertures that are lit alike measure alike, and removeTT hides tilts** — C133: `Model/ShSensor.lean`, see C130.
* **C134 A long exposure measures the mean of its frames** — C134: `Model/ShExposure.lean` runs `frame` with `read` on the arrays that keep their contents, beginning with the static measurements at initialisation; images, detector and centroids are those of `Model/ShSensor.lean`.
* **C135 An exposure collects all its frames, whatever the type of sensor** — C135: `Model/LastFrame.lean` runs `frame` with `read` for the two sensors on what they keep between frames, with the measurements of `Model/Sensors.lean` and `Model/Pyr.lean`.
* **C136 The user decides how much a run tells** — C136: `Model/Cli.lean` models the start script, the order in which it, `Sim`, the GUI and `aoinit` set level and file, and the logger acting on a sequence of messages that is left open. Not modelled: the status function of the GUI, argparse's own errors.
* **C137 Everything that looks in the same direction sees the same wavefront** — C137: two objects of `Model/Pointing.lean` run on the same frame by `Model/Los.lean`; `wfe` of `Model/Science.lean`.
* **C138 Larger screens change nothing, and turbulence outside the beams is not seen** — C138: `grow m` of the simulations of `Model/Whole.lean`; the loop by the relation lemma of C128; `calcParams` of `Model/Config.lean`.
* **C139 Phase screens kept on disk bring back the same turbulence** — C139: `Model/ScreenFiles.lean`, a disk of named files with arrays and strength cards; layers of `Model/Atmos.lean`.
* **C140 No axis and no direction is preferred** — C140: `Props/Symmetry.lean`; `Turn` is a map of pixels with a map of geometries, `Turn.Good` what makes it a symmetry; transposition and reversal are proved good and generate the rest.
* **C141 A run that is interrupted can be continued** — C141: `Model/Interrupt.lean` is `loopFrame` statement by statement (C141_whole: it refines `Loop.loopFrame`), a history is a list of calls, each with the number of statements it got through; `Props/Interrupt.lean`. A statement with a call counts as a whole.
* **C142 The turbulence above the telescope does not depend on the field of view** — C142: `Props/Field.lean`, from C25_frozen_flow_partial (what a window shows), `Conf.calcParams` (size of the screens) and C141_whole (cameras).
* **C143 Only ratios of lengths and of times matter** — C143: `Props/Ratios.lean`, `Model/Velocity.lean`. `resized` multiplies all lengths and times of a `Conf.Config`, `longerOptics` those of a `Whole.Optics`; wind, strength and read-out in `windV`, `layerR0`, `tau`, `winds`, `quant`. Mirrors have the same shapes (a tip-tilt mirror is commanded in arc seconds: C124 says that this is only a unit).
* **C144 The GUI shows what the simulation does** — C144: `Model/Display.lean`, `Props/Display.lean`. Pictures are lists of pixels, configurations are numbered objects, of which the simulation, the GUI and the mirrors each hold one. What gets into the queue of pictures is C49, the threads are C106.
* **C145 The version number identifies the program** — C145: `Model/Version.lean`, `Props/Version.lean`. What git prints is an input, as its manual describes it (`describeText`); the regular expression is the split at the last two hyphens. The names in an archive are given already split and sorted. Only the style soapy is configured with is modelled.
* **C146 Watching a run does not change it** — C146: `Props/Watch.lean`, about the statements of `Model/Interrupt.lean` (C141), which are shown there to be the loop. A simulation relation between two runs leaves out cameras and records; what the cameras and the GUI keep is the state `κ`, which nothing else reads.
* **C147 What the wavelengths matter to** — C147: `Props/Colour.lean`, about `Model/Whole.lean` (C111). `GradCfg.at_` makes the sensor of a wavelength: both `phs2Rad` and the step of `telCoord` are inversely proportional to it. The step from one sensor to the loop is for any sensors whose weights per nanometre agree. The Strehl ratio goes through the mean over pairs of C119.
* **C148 Later turbulence is answered later** — C148: `Props/Later.lean`. `Late` relates the two loops: the earlier one has zeros where the other has nothing yet (values of the reconstructor, delay buffer), which are told apart by neither `reconstruct` nor `DelayBuffer.delay`. That a quiet loop stays at zero is C126 with turbulence zero; flashes are summed with C126.
* **C149 What is not used changes nothing** — C149: `Props/Unused.lean`. `Bigger` is the invariant between the two loops: the first entries are the same, the others are zero. `C149_run` is about any mirrors, reconstructors and sensors that behave like this, `C149_whole` about `Model/Whole.lean` with a control matrix made wider (`widen`). `atAlt` is the turbulence at an altitude.
* **C150 Light takes the same way up and down** — C150: `Props/UpDown.lean`. Each step on the field (a screen, free propagation) is symmetric for the sum of products of two fields; the way down is the way up backwards (`climb`, `descend`), so the overlap of any two fields is the same at top and bottom (`C150_fields`). `Balanced` is what the grid needs; `C150_grid` gives it for even sizes.
* **C151 How actuators are grouped into mirrors does not matter** — C151: `Props/Group.lean`. `joinDm` makes one mirror of several; corrections of the two simulations are related by `SameSum` (what a group shows is the sum of what its mirrors show), which `runDM` keeps although its slots and slices differ. The sensors see sums at an altitude (`atAlt`, from C149). `C151_dropped` shows that the condition on dropped actuators is needed.
* **C152 A precompensated laser goes up through the mirrors as they are** — C152: `Model/Precomp.lean`, `Props/Precomp.lean`. Corrections are references into a memory, as `lgs.precorrection` is the array of the caller and not a copy. `C152_exact` says for which histories the property holds, `C152_learn` and `C152_elongated` what happens in the others, `C152_ground` joins it with the propagation upwards of C150.
* **C153 A correlating sensor measures how far each image is from its reference** — `Model/Corr.lean`: the setter of `referenceImage`, `makeCorrelationImgs` and `calculateSlopes` of `ExtendedSH` as functions of the detector; the class itself cannot be constructed (C89), so this is about its methods. The convolution theorem of C103 turns the transforms into a sum. `fftshift` is called without axes (line 136) and also moves the sub-apertures; the product lacks a conjugation, so it is a convolution; padding moves the middle, but not what is subtracted; a reference of an unknown shape leaves zeros.
* **C154 Noise in the measurements of a whole simulation adds to the lag as the error budget says** — C154: `noisyPlant` in `Model/Whole.lean` adds the numbers drawn to the measurements of `plant`; they are an arbitrary function of frame and measurement. Averages are over a finite probability space (`WhiteMeas`), of which only first and second moments are used, as in C110; that the numbers of `numpy.random.normal` have these moments is trusted. The proof uses `whole_any`, the general form of C111.
* **C155 A wavefront that the mirrors can make is removed for the science cameras in every direction** — C155: `Optics.look` in `Model/Whole.lean` is the line of sight of a camera in geometric mode on the surfaces of the mirrors of the frame (with a delay of the loop in the control, as in C111). `Makes` says that each layer shows the sum of the surfaces (`dmFrame`) of the mirrors conjugated to it. C155_reports puts the phase through `interpPhase`, the PSF of `Model/Psf.lean` and the wavefront error of `Model/Report.lean`; as in C119 the phase is rational in waves and the camera has as many pixels as its Fourier transform.
* **C156 What a camera sees is what the mirrors leave, the same for all gains and delays, plus the lag of the commands** — C156: same model as C155 (`Optics.look`); the part is `view` of the turbulence less the reconstructed commands times `view` of their shapes, but the theorems state it by its properties only.
* **C157 Open-loop and closed-loop mirrors of one simulation do not disturb each other** — C157: `mixedControls` gives every mirror its own mode and gain; everything else is the model of C111 and C155. `C157_loop` is the loop alone (any vector space of shapes); `smooth` is the recursion of `apply_gain` for open-loop mirrors.
* **C158 A control matrix that does not control everything works on what it controls** — C158: same model as C157; `Refinds` is P M P = P for the matrices as the code holds them, `C158_pinv` derives it from the model of `numpy.linalg.pinv` of C125 (exact arithmetic). `Undoes` of C111 is not needed any more; gains that differ between actuators which the control matrix mixes are excluded (`Alike`), C125 shows that they do drive what is filtered.
* **C159 A loop with sensors that expose several frames, and exactly which gains it stands** — C159: `Model/Slow.lean`: the plant of the loop with a state (what the exposure has collected), read when the exposure count of C05 changes, zeros otherwise. All sensors share one exposure time; the weights are 1/e each (C134) or only the last frame (C135). `hold` is the staircase the commands follow; stability of its recursion is shown by the roots of a quadratic (Jury conditions) for d <= e, by a contraction over windows for longer delays.
* **C160 Sensors of different speed in one loop** — C160: `speedsPlant` gives every measurement the exposure of its sensor; otherwise as C159. `hown` says which measurements an actuator is fed by: entries of the control matrix that are not zero.
* **C161 The old line of sight reads the right part of a screen** — C161: `Model/Legacy.lean`; `interp2d` (scipy) is the linear spline on the pixels, sorts its coordinates and continues the border; the tangent of the field angle is a parameter. The current line of sight is that of C30-C33 (`metapupilCoords`, `sampled`).
* **C162 The old line of sight gives turbulence less correction** — C162: same model as C161; the field is kept as its argument (its modulus is one). `SeenOf` is what `getMetaPupilPhase` returns for a correction.
* **C163 Physical propagation of the old line of sight covers the whole path** — C163: `Legacy.physical` is the list of operations on the field, `trace` of C33 follows the light through it.
* **C164 A loop with a control matrix that does not fit** — C164: no new model; C111 without the hypothesis that the control matrix undoes the interaction matrix. `misfit` is the joint recursion of what is left of all components, `comesBack` the product of both matrices.
* **C165 A vibration leaves a vibration of the same frequency** — C165: no new model; `lag` of C110 and the whole simulation of C111 driven by vibrations. `rejection` is the factor as a complex number, stated without reference to the recursion. `evenFrequency` gives N frequencies evenly round the circle, at the odd multiples of π / N so that none of them is zero; the average over all frequencies is the limit of the averages over these.
* **C166 Turbulence against noise: what a gain leaves, and the best gain** — C166: no new model; C154 (whole simulation with noise) with random turbulence. `Walk` is the hypothesis on turbulence and noise, over a finite probability space as in C110.
