{
 "claims": [
  {
   "property": "C01",
   "status": "proved",
   "theorems": [
    "Soapy.Props.C01_constant_delay"
   ],
   "note": ""
  },
  {
   "property": "C02",
   "status": "proved",
   "theorems": [
    "Soapy.Props.C02_varying_delay",
    "Soapy.Props.C02_no_replay",
    "Soapy.Props.C02_backlog",
    "Soapy.Props.C02_negative_delay_fails"
   ],
   "note": ""
  },
  {
   "property": "C03",
   "status": "proved",
   "theorems": [
    "Soapy.Props.C03_aliasing_safe"
   ],
   "note": ""
  },
  {
   "property": "C04",
   "status": "partial",
   "theorems": [
    "Soapy.Props.C04_reset_stale",
    "Soapy.Props.C04_reset_violated",
    "Soapy.Props.C04_reset_clean_partial"
   ],
   "note": "violated for loopDelay >= 1 (C04_reset_violated, exact behaviour in C04_reset_stale); proved for delay 0"
  },
  {
   "property": "C05",
   "status": "proved",
   "theorems": [
    "Soapy.Props.C05_cadence",
    "Soapy.Props.C05_short",
    "Soapy.Props.C05_any_clock",
    "Soapy.Props.C05_no_iteration_fails"
   ],
   "note": ""
  },
  {
   "property": "C06",
   "status": "partial",
   "theorems": [
    "Soapy.Props.C06_reset_violated",
    "Soapy.Props.C06_reset_violated_short",
    "Soapy.Props.C06_reset_partial"
   ],
   "note": "violated for E != T (witnesses); proved for exposure time = loop time"
  },
  {
   "property": "C07",
   "status": "partial",
   "theorems": [
    "Soapy.Props.C07_mp_differs",
    "Soapy.Props.C07_mp_agrees_partial"
   ],
   "note": "violated for E > T (frame 0); proved for E <= T"
  },
  {
   "property": "C08",
   "status": "proved",
   "theorems": [
    "Soapy.Props.C08_exposure_sum",
    "Soapy.Props.C08_each_frame_once",
    "Soapy.Props.C08_conservation"
   ],
   "note": ""
  },
  {
   "property": "C09",
   "status": "proved",
   "theorems": [
    "Soapy.Props.C09_offsets",
    "Soapy.Props.C09_vector_layout",
    "Soapy.Props.C09_sensor_list"
   ],
   "note": ""
  },
  {
   "property": "C10",
   "status": "proved",
   "theorems": [
    "Soapy.Props.C10_closed_integrates",
    "Soapy.Props.C10_open_averages",
    "Soapy.Props.C10_open_bounded"
   ],
   "note": ""
  },
  {
   "property": "C11",
   "status": "proved",
   "theorems": [
    "Soapy.Props.C11_gain_per_mirror",
    "Soapy.Props.C11_blocks_partition"
   ],
   "note": ""
  },
  {
   "property": "C12",
   "status": "proved",
   "theorems": [
    "Soapy.Props.C12_no_read_no_motion"
   ],
   "note": ""
  },
  {
   "property": "C13",
   "status": "partial",
   "theorems": [
    "Soapy.Props.C13_linear",
    "Soapy.Props.C13_flat",
    "Soapy.Props.C13_no_piston_partial",
    "Soapy.Props.C13_crop_has_piston",
    "Soapy.Props.C13_rotation_fails"
   ],
   "note": "zero mean proved when the influence functions cover exactly the rendered area; violated when they are cropped (C13_crop_has_piston)"
  },
  {
   "property": "C14",
   "status": "proved",
   "theorems": [
    "Soapy.Props.C14_alignment",
    "Soapy.Props.C14_surface",
    "Soapy.Props.C14_stacked"
   ],
   "note": ""
  },
  {
   "property": "C15",
   "status": "partial",
   "theorems": [
    "Soapy.Props.C15_size_partial",
    "Soapy.Props.C15_odd_fails"
   ],
   "note": "proved for matching parity; violated for an odd size difference (C15_odd_fails)"
  },
  {
   "property": "C16",
   "status": "proved",
   "theorems": [
    "Soapy.Props.C16_who_sees_what",
    "Soapy.Props.C16_run_completes",
    "Soapy.Props.C16_toggle_leaves_stale_surface"
   ],
   "note": "for a configuration fixed during the run; a mode switched during a run leaves a stale surface (C16_toggle_leaves_stale_surface)"
  },
  {
   "property": "C17",
   "status": "proved",
   "theorems": [
    "Soapy.Props.C17_causal",
    "Soapy.Props.C17_latency"
   ],
   "note": ""
  },
  {
   "property": "C18",
   "status": "proved",
   "theorems": [
    "Soapy.Props.C18_history",
    "Soapy.Props.C18_short_run",
    "Soapy.Props.C18_dropped_actuators_fail",
    "Soapy.Props.C18_dropped_actuators_error"
   ],
   "note": "for every run that completes; recording commands with dropped actuators never completes a frame (C18_dropped_actuators_fail)"
  },
  {
   "property": "C19",
   "status": "proved",
   "theorems": [
    "Soapy.Props.C19_last_frame",
    "Soapy.Props.C19_no_frame"
   ],
   "note": ""
  },
  {
   "property": "C20",
   "status": "proved",
   "theorems": [
    "Soapy.Props.C20_round_trip"
   ],
   "note": ""
  },
  {
   "property": "C21",
   "status": "partial",
   "theorems": [
    "Soapy.Props.C21_header_mismatch_clean",
    "Soapy.Props.C21_accepts_only_matching",
    "Soapy.Props.C21_nothing_dropped_partial",
    "Soapy.Props.C21_violated",
    "Soapy.Props.C21_reasons"
   ],
   "note": "proved for header mismatches, missing/unreadable matrix, and whenever no actuator was dropped; violated otherwise (C21_violated); Which exception is given is C21_reasons."
  },
  {
   "property": "C22",
   "status": "partial",
   "theorems": [
    "Soapy.Props.C22_no_mixture_partial",
    "Soapy.Props.C22_mixed",
    "Soapy.Props.C22_rebuild_fails"
   ],
   "note": "never a mixture if older flag files agree or are absent; violated by older flags (C22_mixed) and by the rebuild after a crash between flag files (C22_rebuild_fails)"
  },
  {
   "property": "C23",
   "status": "partial",
   "theorems": [
    "Soapy.Props.C23_shape_checked",
    "Soapy.Props.C23_size_partial",
    "Soapy.Props.C23_never_reused",
    "Soapy.Props.C23_wrong_size_accepted",
    "Soapy.Props.C23_other_mirrors"
   ],
   "note": "size check is against the actuator count before dropping: proved if none dropped; violated otherwise (C23_wrong_size_accepted, C23_never_reused); other numbers of mirrors"
  },
  {
   "property": "C24",
   "status": "proved",
   "theorems": [
    "Soapy.Props.C24_window_inside",
    "Soapy.Props.C24_init_iff",
    "Soapy.Props.C24_refused"
   ],
   "note": ""
  },
  {
   "property": "C25",
   "status": "partial",
   "theorems": [
    "Soapy.Props.C25_frozen_flow_partial",
    "Soapy.Props.C25_drift_partial",
    "Soapy.Props.C25_violated",
    "Soapy.Props.C25_stuck"
   ],
   "note": "violated for fractional displacements (C25_violated, C25_stuck): the fraction is lost whenever the window reaches the edge; exact for whole-pixel displacements; loss bounded for all velocities (C25_drift_partial)"
  },
  {
   "property": "C26",
   "status": "proved",
   "theorems": [
    "Soapy.Props.C26_rows_and_offset",
    "Soapy.Props.C26_shift",
    "Soapy.Props.C26_negative_wind",
    "Soapy.Props.C26_last_columns_equal",
    "Soapy.Props.C26_rotation_size"
   ],
   "note": "v >= 0 as stated; negative speeds never move (C26_negative_wind); last two columns are always equal (C26_last_columns_equal)"
  },
  {
   "property": "C27",
   "status": "proved",
   "theorems": [
    "Soapy.Props.C27_total_strength",
    "Soapy.Props.C27_scale_free",
    "Soapy.Props.C27_phase_variance"
   ],
   "note": ""
  },
  {
   "property": "C28",
   "status": "proved",
   "theorems": [
    "Soapy.Props.C28_coherence_time",
    "Soapy.Props.C28_unchanged"
   ],
   "note": ""
  },
  {
   "property": "C29",
   "status": "proved",
   "theorems": [
    "Soapy.Props.C29_rotate",
    "Soapy.Props.C29_safe",
    "Soapy.Props.C29_samples",
    "Soapy.Props.C29_exact_on_bilinear",
    "Soapy.Props.C29_linear",
    "Soapy.Props.C29_checked_total",
    "Soapy.Props.C29_limits",
    "Soapy.Props.C29_zoom",
    "Soapy.Props.C29_zoom_safe",
    "Soapy.Props.C29_array"
   ],
   "note": "Whole arrays of coordinates: C29_array."
  },
  {
   "property": "C30",
   "status": "proved",
   "theorems": [
    "Soapy.Props.C30_in_bounds",
    "Soapy.Props.C30_identity_inside",
    "Soapy.Props.C30_frames_complete"
   ],
   "note": ""
  },
  {
   "property": "C31",
   "status": "proved",
   "theorems": [
    "Soapy.Props.C31_memoryless",
    "Soapy.Props.C31_additive",
    "Soapy.Props.C31_layer_order",
    "Soapy.Props.C31_residual_units"
   ],
   "note": "the residual returned next to the phase is in radians or nanometres depending on the direction (C31_residual_units)"
  },
  {
   "property": "C32",
   "status": "proved",
   "theorems": [
    "Soapy.Props.C32_footprint",
    "Soapy.Props.C32_special",
    "Soapy.Props.C32_uplink",
    "Soapy.Props.C32_samples",
    "Soapy.Props.C32_unit_sampling",
    "Soapy.Props.C32_backwards_at_source",
    "Soapy.Props.C32_uplink_infinite"
   ],
   "note": "footprint edges as stated; the samples span one pixel less than the footprint and so run backwards at the source (C32_backwards_at_source); C32_uplink_infinite: beams sent up to infinity."
  },
  {
   "property": "C33",
   "status": "proved",
   "theorems": [
    "Soapy.Props.C33_down",
    "Soapy.Props.C33_up",
    "Soapy.Props.C33_unsorted",
    "Soapy.Props.C33_source_below_layer"
   ],
   "note": "for ascending altitudes; unsorted altitudes go wrong silently (C33_unsorted)"
  },
  {
   "property": "C34",
   "status": "partial",
   "theorems": [
    "Soapy.Props.C34_any_direction",
    "Soapy.Props.C34_guide_stars_partial",
    "Soapy.Props.C34_science_partial",
    "Soapy.Props.C34_sizes",
    "Soapy.Props.C34_negative_science_violated",
    "Soapy.Props.C34_elongated_violated",
    "Soapy.Props.C34_elongated_partial",
    "Soapy.Props.C34_ground",
    "Soapy.Props.C34_alone"
   ],
   "note": "guide stars without elongation (up to twice the beacon height) and science targets with non-negative coordinates; violated for negative science coordinates (C34_negative_science_violated) and elongated beacons (C34_elongated_violated); uplink launch offsets are not considered; elongated beacons with coordinates that are not negative lie on the screen from end to end; C34_ground: which beacons are refused; Without stars and targets the screens are exactly as large as the simulated area, made even."
  },
  {
   "property": "C35",
   "status": "partial",
   "theorems": [
    "Soapy.Props.C35_stable_partial",
    "Soapy.Props.C35_complete",
    "Soapy.Props.C35_zero_pixels",
    "Soapy.Props.C35_refused"
   ],
   "note": "exact arithmetic, cameras with at least one pixel; with zero pixels the second calculation raises (C35_zero_pixels); C35_refused lists all reasons for which the calculation fails."
  },
  {
   "property": "C36",
   "status": "proved",
   "theorems": [
    "Soapy.Props.C36_setattr",
    "Soapy.Props.C36_load",
    "Soapy.Props.C36_unknown_ignored"
   ],
   "note": "unknown names in the file are ignored silently (C36_unknown_ignored); unknown attributes raise"
  },
  {
   "property": "C37",
   "status": "proved",
   "theorems": [
    "Soapy.Props.C37_bin_img",
    "Soapy.Props.C37_bin_imgs",
    "Soapy.Props.C37_flux_conserved"
   ],
   "note": ""
  },
  {
   "property": "C38",
   "status": "proved",
   "theorems": [
    "Soapy.Props.C38_quadrants",
    "Soapy.Props.C38_involution",
    "Soapy.Props.C38_even",
    "Soapy.Props.C38_odd_differs"
   ],
   "note": "for odd sizes the two shifts differ (C38_odd_differs); the property claims equality for even sizes only"
  },
  {
   "property": "C39",
   "status": "proved",
   "theorems": [
    "Soapy.Props.C39_map_kernels",
    "Soapy.Props.C39_chop",
    "Soapy.Props.C39_schedule_independent"
   ],
   "note": ""
  },
  {
   "property": "C40",
   "status": "partial",
   "theorems": [
    "Soapy.Props.C40_tiling",
    "Soapy.Props.C40_active_iff",
    "Soapy.Props.C40_total",
    "Soapy.Props.C40_fills",
    "Soapy.Props.C40_optics_partial",
    "Soapy.Props.C40_optics_violated"
   ],
   "note": "tiling, threshold and order proved for all masks; the optical cut positions are truncated instead of rounded: adjacent for whole pupil pixels per sub-aperture, overlapping otherwise (C40_optics_violated)"
  },
  {
   "property": "C41",
   "status": "proved",
   "theorems": [
    "Soapy.Props.C41_reference_zero",
    "Soapy.Props.C41_movement",
    "Soapy.Props.C41_centre",
    "Soapy.Props.C41_tt_removed",
    "Soapy.Props.C41_tt_keeps_differences",
    "Soapy.Props.C41_dark_reads_corner",
    "Soapy.Props.C41_no_noise_in_reference"
   ],
   "note": "a dark sub-aperture reads the corner, not zero (C41_dark_reads_corner)"
  },
  {
   "property": "C42",
   "status": "proved",
   "theorems": [
    "Soapy.Props.C42_total",
    "Soapy.Props.C42_flux_independent",
    "Soapy.Props.C42_shares",
    "Soapy.Props.C42_linear_time",
    "Soapy.Props.C42_magnitude",
    "Soapy.Props.C42_readout",
    "Soapy.Props.C42_dark"
   ],
   "note": ""
  },
  {
   "property": "C43",
   "status": "partial",
   "theorems": [
    "Soapy.Props.C43_sizes_partial",
    "Soapy.Props.C43_place_partial",
    "Soapy.Props.C43_windows_disjoint",
    "Soapy.Props.C43_roundtrip",
    "Soapy.Props.C43_odd_fails",
    "Soapy.Props.C43_spread"
   ],
   "note": "proved for whole-pixel padding (every field stop, even pixel counts); violated for odd pixel counts without field stop: placing raises (C43_odd_fails); C43_spread: a one-pixel cut is spread over the window"
  },
  {
   "property": "C44",
   "status": "proved",
   "theorems": [
    "Soapy.Props.C44_least",
    "Soapy.Props.C44_no_pixels"
   ],
   "note": ""
  },
  {
   "property": "C45",
   "status": "proved",
   "theorems": [
    "Soapy.Props.C45_sum_since_reset",
    "Soapy.Props.C45_unit_flux",
    "Soapy.Props.C45_reset_forgets",
    "Soapy.Props.C45_average",
    "Soapy.Props.C45_unequal_weights",
    "Soapy.Props.C45_strehl_ideal"
   ],
   "note": "sums, unit flux, reset and the average of frames of equal total proved; frames of unequal totals do not weigh equally (C45_unequal_weights)"
  },
  {
   "property": "C46",
   "status": "proved",
   "theorems": [
    "Soapy.Props.C46_nonneg",
    "Soapy.Props.C46_piston",
    "Soapy.Props.C46_homogeneous",
    "Soapy.Props.C46_zero_iff",
    "Soapy.Props.C46_triangle",
    "Soapy.Props.C46_least_squares"
   ],
   "note": ""
  },
  {
   "property": "C47",
   "status": "partial",
   "theorems": [
    "Soapy.Props.C47_one_caller_partial",
    "Soapy.Props.C47_stop_terminates",
    "Soapy.Props.C47_two_callers_violated",
    "Soapy.Props.C47_crash_blocks_start"
   ],
   "note": "proved for every execution with one caller at a time, including saving and termination of stop; violated when start calls overlap (C47_two_callers_violated); after a crash of the loop thread the flag stays set and start does nothing (C47_crash_blocks_start)"
  },
  {
   "property": "C48",
   "status": "partial",
   "theorems": [
    "Soapy.Props.C48_all_frames_partial",
    "Soapy.Props.C48_fresh",
    "Soapy.Props.C48_interrupted",
    "Soapy.Props.C48_resume",
    "Soapy.Props.C48_no_frames",
    "Soapy.Props.C48_early_stop_lost"
   ],
   "note": "nIters = 0 raises in finishUp (C48_no_frames); a stop request before the loop starts is lost (C48_early_stop_lost)"
  },
  {
   "property": "C49",
   "status": "proved",
   "theorems": [
    "Soapy.Props.C49_one_per_request",
    "Soapy.Props.C49_newest",
    "Soapy.Props.C49_never_blocks",
    "Soapy.Props.C49_requests_served"
   ],
   "note": ""
  },
  {
   "property": "C50",
   "status": "proved",
   "theorems": [
    "Soapy.Props.C50_level",
    "Soapy.Props.C50_documented",
    "Soapy.Props.C50_monotone",
    "Soapy.Props.C50_set",
    "Soapy.Props.C50_print_is_silent"
   ],
   "note": "print_ uses the debug level and is silent below it (C50_print_is_silent)"
  },
  {
   "property": "C51",
   "status": "proved",
   "theorems": [
    "Soapy.Sensors.C51_flux",
    "Soapy.Sensors.C51_count",
    "Soapy.Sensors.C51_bounded",
    "Soapy.Sensors.C51_reference",
    "Soapy.Sensors.C51_sensor",
    "Soapy.Sensors.C51_dark",
    "Soapy.Sensors.C51_pairing",
    "Soapy.Sensors.C51_fits",
    "Soapy.Sensors.C51_refused",
    "Soapy.Sensors.C51_wrapped",
    "Soapy.Sensors.C51_rebin",
    "Soapy.Sensors.C51_flat"
   ],
   "note": "odd detector sizes and separations that do not fit fail or are refused (C51_fits); a dark image divides by zero (C51_dark); C51_flat: reference slopes of another length."
  },
  {
   "property": "C52",
   "status": "partial",
   "theorems": [
    "Soapy.Sensors.C52_linear",
    "Soapy.Sensors.C52_piston",
    "Soapy.Sensors.C52_tilt_partial",
    "Soapy.Sensors.C52_place",
    "Soapy.Sensors.C52_scale",
    "Soapy.Sensors.C52_remove_tilt",
    "Soapy.Sensors.C52_one_pixel",
    "Soapy.Sensors.C52_edge_violated"
   ],
   "note": "violated at partly illuminated edge sub-apertures (C52_edge_violated); one-pixel sub-apertures divide by zero (C52_one_pixel); the tilt comes back with the factor -(N-1)/N (C52_tilt_partial)"
  },
  {
   "property": "C53",
   "status": "proved",
   "theorems": [
    "Soapy.Tools.C53_ends",
    "Soapy.Tools.C53_straight",
    "Soapy.Tools.C53_line_of_sight",
    "Soapy.Tools.C53_no_height",
    "Soapy.Tools.C53_warning",
    "Soapy.Tools.C53_warning_violated"
   ],
   "note": "beacons of non-zero height; the warning that the beam leaves the simulated area misses negative sides (C53_warning_violated)"
  },
  {
   "property": "C54",
   "status": "partial",
   "theorems": [
    "Soapy.Tools.C54_rows_partial",
    "Soapy.Tools.C54_too_many"
   ],
   "note": "at least one process and no more processes than rows; otherwise refused (C54_too_many)"
  },
  {
   "property": "C55",
   "status": "proved",
   "theorems": [
    "Soapy.Props.C55_imat_frame_quiet",
    "Soapy.Props.C55_simple_frame_quiet",
    "Soapy.Props.C55_exception_leaves_quiet"
   ],
   "note": ""
  },
  {
   "property": "C56",
   "status": "partial",
   "theorems": [
    "Soapy.Tools.C56_equal_partial",
    "Soapy.Tools.C56_covariance",
    "Soapy.Tools.C56_blocks",
    "Soapy.Tools.C56_smaller_violated",
    "Soapy.Tools.C56_larger_fails"
   ],
   "note": "proved for sensors of equal size; violated for a smaller second sensor (C56_smaller_violated), a larger one cannot be recorded (C56_larger_fails)"
  },
  {
   "property": "C57",
   "status": "proved",
   "theorems": [
    "Soapy.Tools.C57_size",
    "Soapy.Tools.C57_file",
    "Soapy.Tools.C57_array",
    "Soapy.Tools.C57_circle",
    "Soapy.Tools.C57_zero_obscuration",
    "Soapy.Tools.C57_negative"
   ],
   "note": "an obscuration larger than the pupil gives negative transmission (C57_negative); obscuration 0 removes a pixel of odd masks (C57_zero_obscuration)"
  },
  {
   "property": "C58",
   "status": "partial",
   "theorems": [
    "Soapy.Props.C58_reset_restarts_partial",
    "Soapy.Props.C58_delay_one_violated"
   ],
   "note": "proved for loopDelay = 0; violated for delay 1 (C58_delay_one_violated)"
  },
  {
   "property": "C59",
   "status": "proved",
   "theorems": [
    "Soapy.Props.C59_saved_screens_reload",
    "Soapy.Props.C59_any_pixel"
   ],
   "note": ""
  },
  {
   "property": "C60",
   "status": "partial",
   "theorems": [
    "Soapy.Props.C60_sizes_partial",
    "Soapy.Props.C60_odd_crop_fails",
    "Soapy.Props.C60_physical",
    "Soapy.Props.C60_no_padding"
   ],
   "note": "proved when the cropped elements are an even number; violated otherwise (C60_odd_crop_fails); physical propagation without padding leaves nothing (C60_no_padding)"
  },
  {
   "property": "C61",
   "status": "partial",
   "theorems": [
    "Soapy.Props.C61_on_axis_partial",
    "Soapy.Props.C61_off_axis_violated"
   ],
   "note": "proved on axis; violated for every off-axis guide star (C61_off_axis_violated): the position is multiplied by RAD2ASEC instead of divided, and added twice"
  },
  {
   "property": "C62",
   "status": "partial",
   "theorems": [
    "Soapy.Sensors.C62_image_partial",
    "Soapy.Sensors.C62_violated"
   ],
   "note": "proved when there are at least as many modulation points as the buffer has; violated otherwise (C62_violated)"
  },
  {
   "property": "C63",
   "status": "partial",
   "theorems": [
    "Soapy.Tools.C63_involution",
    "Soapy.Tools.C63_mirrored_partial",
    "Soapy.Tools.C63_turned_back",
    "Soapy.Tools.C63_image",
    "Soapy.Tools.C63_centre_violated"
   ],
   "note": "permutation and involution for every size; for even sizes the result is mirrored (C63_mirrored_partial) and zero frequency is not in the middle (C63_centre_violated)"
  },
  {
   "property": "C64",
   "status": "partial",
   "theorems": [
    "Soapy.Props.C64_laser_geometric_violated",
    "Soapy.Props.C64_physical_blind_violated",
    "Soapy.Tools.C64_square_partial",
    "Soapy.Tools.C64_same_size",
    "Soapy.Tools.C64_complex_violated",
    "Soapy.Tools.C64_rectangle_violated",
    "Soapy.Props.C64_laser_physical_violated"
   ],
   "note": "proved for real square arrays of at least 4 x 4; violated for complex (C64_complex_violated) and rectangular arrays (C64_rectangle_violated); consequences: lasers with uplink raise in both modes (C64_laser_geometric_violated, C64_laser_physical_violated), sensors in physical propagation measure zero (C64_physical_blind_violated)"
  },
  {
   "property": "C65",
   "status": "partial",
   "theorems": [
    "Soapy.Props.C65_again_partial",
    "Soapy.Props.C65_violated"
   ],
   "note": "proved when no actuator is dropped; a second makeIMat raises when any actuator was dropped (C65_violated)"
  },
  {
   "property": "C66",
   "status": "partial",
   "theorems": [
    "Soapy.Props.C66_shift",
    "Soapy.Props.C66_own_rows_partial",
    "Soapy.Props.C66_next_mirror",
    "Soapy.Props.C66_violated",
    "Soapy.Props.C66_errors"
   ],
   "note": "proved for mirrors before which no actuator was dropped; otherwise rows of the wrong mirror are returned (C66_violated); C66_errors: mirrors or sensors that do not exist."
  },
  {
   "property": "C67",
   "status": "partial",
   "theorems": [
    "Soapy.Props.C67_own_sensor_partial",
    "Soapy.Props.C67_matrix",
    "Soapy.Props.C67_dropped_fails",
    "Soapy.Props.C67_violated",
    "Soapy.Props.C67_all_sensors_fails"
   ],
   "note": "proved for mirrors with their own sensor and no dropped actuators; raises after dropping (C67_dropped_fails) and for mirrors on all sensors (C67_all_sensors_fails)"
  },
  {
   "property": "C68",
   "status": "partial",
   "theorems": [
    "Soapy.Props.C68_restart_partial",
    "Soapy.Props.C68_truth_columns",
    "Soapy.Props.C68_violated",
    "Soapy.Props.C68_control_matrix"
   ],
   "note": "the saved, cut interaction matrix and control matrix are always rejected; same result only if no actuator was dropped, otherwise the second start raises (C68_violated)"
  },
  {
   "property": "C69",
   "status": "partial",
   "theorems": [
    "Soapy.Props.C69_truth_unused",
    "Soapy.Props.C69_control_law_partial",
    "Soapy.Props.C69_tilt",
    "Soapy.Props.C69_gain_violated",
    "Soapy.Props.C69_mismatch"
   ],
   "note": "truth sensor unused and control law proved; with a tip-tilt mirror in front gains, modes and previous commands are ignored (C69_gain_violated); C69_mismatch: another number of measurements is refused"
  },
  {
   "property": "C70",
   "status": "partial",
   "theorems": [
    "Soapy.Props.C70_never_runs",
    "Soapy.Props.C70_calc_fails",
    "Soapy.Props.C70_tilt_remains",
    "Soapy.Props.C70_equal_tilt_partial"
   ],
   "note": "the class cannot run as written (C70_never_runs, C70_calc_fails); tilt removal uses one mean for x and y (C70_tilt_remains), right for equal tilt"
  },
  {
   "property": "C71",
   "status": "partial",
   "theorems": [
    "Soapy.Props.C71_repeated_blur",
    "Soapy.Props.C71_single_frame_partial",
    "Soapy.Props.C71_violated"
   ],
   "note": "closed form for every exposure; one blur per frame only when every frame is read; violated for longer exposures (C71_violated)"
  },
  {
   "property": "C72",
   "status": "partial",
   "theorems": [
    "Soapy.Props.C72_history_partial",
    "Soapy.Props.C72_violated"
   ],
   "note": "proved for every history ending with a read-out; unread light enters the first poke (C72_violated)"
  },
  {
   "property": "C73",
   "status": "partial",
   "theorems": [
    "Soapy.Props.C73_settings",
    "Soapy.Props.C73_noise_off_partial",
    "Soapy.Props.C73_violated"
   ],
   "note": "settings and option off proved; the option on has no effect for any sensor (C73_violated)"
  },
  {
   "property": "C74",
   "status": "partial",
   "theorems": [
    "Soapy.Props.C74_modal_partial",
    "Soapy.Props.C74_tt_partial",
    "Soapy.Props.C74_piezo_partial",
    "Soapy.Props.C74_odd_fails",
    "Soapy.Props.C74_piezo_equal_fails",
    "Soapy.Props.C74_piezo_dead",
    "Soapy.Props.C74_piezo_odd_fails",
    "Soapy.Props.C74_unmakeable",
    "Soapy.Props.C74_sizes",
    "Soapy.Props.C74_gauss"
   ],
   "note": "proved for even size differences; odd differences fail or leave a dead mirror, equal sizes cannot be made for a stack mirror (C74_odd_fails, C74_piezo_odd_fails, C74_piezo_dead, C74_piezo_equal_fails); C74_gauss: centres and widths of the Gaussian stack."
  },
  {
   "property": "C75",
   "status": "partial",
   "theorems": [
    "Soapy.Props.C75_tilt",
    "Soapy.Props.C75_arcsec_partial",
    "Soapy.Props.C75_violated",
    "Soapy.Props.C75_orthogonal",
    "Soapy.Props.C75_single"
   ],
   "note": "direction, orthogonality, no piston proved; the unit is one arcsecond iff the mirror has the telescope's diameter (C75_violated otherwise)"
  },
  {
   "property": "C76",
   "status": "partial",
   "theorems": [
    "Soapy.Props.C76_partial",
    "Soapy.Props.C76_equal_sizes",
    "Soapy.Props.C76_commands"
   ],
   "note": "proved for even size differences and every linear spline; equal sizes: only FastPiezo works (C76_equal_sizes); wrong numbers of commands refused"
  },
  {
   "property": "C77",
   "status": "partial",
   "theorems": [
    "Soapy.Props.C77_numeric_partial",
    "Soapy.Props.C77_nan_kept",
    "Soapy.Props.C77_not_square",
    "Soapy.Props.C77_hull",
    "Soapy.Props.C77_enlarge_border",
    "Soapy.Props.C77_same_size"
   ],
   "note": "proved for numeric missing values and equal sizes; violated for NaN, images that are not square and enlarged images"
  },
  {
   "property": "C78",
   "status": "partial",
   "theorems": [
    "Soapy.Props.C78_grid",
    "Soapy.Props.C78_regular",
    "Soapy.Props.C78_inside_partial",
    "Soapy.Props.C78_divides",
    "Soapy.Props.C78_violated",
    "Soapy.Props.C78_gauss_partial"
   ],
   "note": "grid, spacing, symmetry proved; on the mirror iff b*(x-1) < nx (C78_violated); Gaussian stack centred iff mirror is as large as the pupil"
  },
  {
   "property": "C79",
   "status": "proved",
   "theorems": [
    "Soapy.Props.C79_loop",
    "Soapy.Props.C79_no_delay",
    "Soapy.Props.C79_no_delay_stable",
    "Soapy.Props.C79_delay_stable",
    "Soapy.Props.C79_delay_one_stable",
    "Soapy.Props.C79_no_overshoot",
    "Soapy.Props.C79_exact",
    "Soapy.Props.C79_bounds",
    "Soapy.Props.C79_default_gain"
   ],
   "note": "exact for every delay (roots of z^d (z-1) = -g, Gelfand's formula); C79_delay_stable gives an explicit rate for gains below 1/d"
  },
  {
   "property": "C80",
   "status": "partial",
   "theorems": [
    "Soapy.Props.C80_shack_hartmann_partial",
    "Soapy.Props.C80_check_violated",
    "Soapy.Props.C80_pyramid_violated",
    "Soapy.Props.C80_poison",
    "Soapy.Props.C80_finite",
    "Soapy.Props.C80_reset",
    "Soapy.Props.C80_delay_violated",
    "Soapy.Props.C80_surface",
    "Soapy.Props.C80_surface_finite",
    "Soapy.Props.C80_shack_hartmann_value",
    "Soapy.Props.C80_unread",
    "Soapy.Props.C80_delay"
   ],
   "note": "proved for Shack-Hartmann sensors with finite reference and noise; violated by the base class check (result discarded), the pyramid, and everything after it (C80_poison, C80_delay_violated)"
  },
  {
   "property": "C81",
   "status": "partial",
   "theorems": [
    "Soapy.Props.C81_symmetric_about",
    "Soapy.Props.C81_centred_partial",
    "Soapy.Props.C81_odd",
    "Soapy.Props.C81_even",
    "Soapy.Props.C81_field_stop_violated",
    "Soapy.Props.C81_binned",
    "Soapy.Props.C81_centroid"
   ],
   "note": "exact conditions proved for even FFT sizes / odd pixel numbers; violated by every field-stop configuration with an even number of pixels (C81_field_stop_violated)"
  },
  {
   "property": "C82",
   "status": "proved",
   "theorems": [
    "Soapy.Props.C82_piston",
    "Soapy.Props.C82_tilt",
    "Soapy.Props.C82_detector"
   ],
   "note": ""
  },
  {
   "property": "C83",
   "status": "partial",
   "theorems": [
    "Soapy.Props.C83_focus",
    "Soapy.Props.C83_focus_error",
    "Soapy.Props.C83_lens",
    "Soapy.Props.C83_centred_partial",
    "Soapy.Props.C83_violated",
    "Soapy.Props.C83_crop",
    "Soapy.Props.C83_rms"
   ],
   "note": "focus and crop proved; lens centred iff the sizes have the same parity (C83_violated); C83_rms: mean zero and rms of the focus term over the pupil"
  },
  {
   "property": "C84",
   "status": "partial",
   "theorems": [
    "Soapy.Props.C84_field",
    "Soapy.Props.C84_scale_partial",
    "Soapy.Props.C84_violated"
   ],
   "note": "equal iff sampling is exactly diam*fov/wavelength; violated without field stop (C84_violated)"
  },
  {
   "property": "C85",
   "status": "partial",
   "theorems": [
    "Soapy.Props.C85_nominal",
    "Soapy.Props.C85_heights",
    "Soapy.Props.C85_on_axis",
    "Soapy.Props.C85_sign",
    "Soapy.Props.C85_violated",
    "Soapy.Props.C85_half_partial",
    "Soapy.Props.C85_tilt_violated",
    "Soapy.Props.C85_range"
   ],
   "note": "zero at nominal height, sign, axis proved; amplitude is twice the right one (C85_violated, C85_tilt_violated)"
  },
  {
   "property": "C86",
   "status": "partial",
   "theorems": [
    "Soapy.Props.C86_bound_partial",
    "Soapy.Props.C86_at_most_one_partial",
    "Soapy.Props.C86_flat",
    "Soapy.Props.C86_flat_centre_partial",
    "Soapy.Props.C86_violated",
    "Soapy.Props.C86_oversampling_violated",
    "Soapy.Props.C86_cropping_violated"
   ],
   "note": "bound 1 proved without oversampling and cropping, bound fftOversamp^2 without cropping; violated otherwise (C86_violated)"
  },
  {
   "property": "C87",
   "status": "partial",
   "theorems": [
    "Soapy.Props.C87_conserved_partial",
    "Soapy.Props.C87_phase",
    "Soapy.Props.C87_square",
    "Soapy.Props.C87_violated"
   ],
   "note": "independent of phase, proved; proportional to the square of the lit part (C87_square), so violated (C87_violated)"
  },
  {
   "property": "C88",
   "status": "partial",
   "theorems": [
    "Soapy.Props.C88_conserved_partial",
    "Soapy.Props.C88_slots_violated",
    "Soapy.Props.C88_intensity_violated",
    "Soapy.Props.C88_intensity_phase"
   ],
   "note": "conserved if every slot is written; violated by unwritten slots (C88_slots_violated) and by intensity (C88_intensity_violated)"
  },
  {
   "property": "C89",
   "status": "partial",
   "theorems": [
    "Soapy.Props.C89_shackhartmann_partial",
    "Soapy.Props.C89_pyramid_partial",
    "Soapy.Props.C89_legacy_partial",
    "Soapy.Props.C89_gradient_partial",
    "Soapy.Props.C89_gradient_violated",
    "Soapy.Props.C89_elongation_violated",
    "Soapy.Props.C89_legacy_violated",
    "Soapy.Props.C89_zernike_violated",
    "Soapy.Props.C89_extended_violated",
    "Soapy.Props.C89_shackhartmann_violated",
    "Soapy.Props.C89_violated"
   ],
   "note": "holds for the Shack-Hartmann sensor but for two kinds of use, for the pyramid and the legacy sensor with a point source; violated: Zernike and ExtendedSH cannot be made, Gradient has no n_measurements, Pyramid, Gradient and the legacy sensor fail with elongation"
  },
  {
   "property": "C90",
   "status": "partial",
   "theorems": [
    "Soapy.Props.C90_partial",
    "Soapy.Props.C90_exact",
    "Soapy.Props.C90_violated",
    "Soapy.Props.C90_runWfs"
   ],
   "note": "holds exactly for the settings of `Supported` with reconstructors MVM, MVM_SeparateDMs, LearnAndApply and LearnAndApplyLTAO; violated: wfsMP, loadModule, saveInstScieField and others never work; GLAO_4LGS never completes a frame; WooferTweeter (two mirrors), LgsTT, ANN and Reconstructor never complete the calibration; runWfs(scrns) always raises. aoinit followed by makeIMat(forceNew=False) is left out here, see C91"
  },
  {
   "property": "C91",
   "status": "partial",
   "theorems": [
    "Soapy.Props.C91_partial",
    "Soapy.Props.C91_violated"
   ],
   "note": "holds if the loop is reset only after a frame; violated: reset_loop() before the first frame raises AttributeError for every mirror when the matrices were loaded, because mirrors get dm_shape only in their first frame"
  },
  {
   "property": "C92",
   "status": "partial",
   "theorems": [
    "Soapy.Props.C92_same",
    "Soapy.Props.C92_every",
    "Soapy.Props.C92_false_violated",
    "Soapy.Props.C92_count",
    "Soapy.Props.C92_section",
    "Soapy.Props.C92_calculated",
    "Soapy.Props.C92_missing"
   ],
   "note": "holds for every laser entry that is left out, null or a group; violated for `lgs: False` in YAML, which cannot be loaded; C92_section: a YAML file without the section of the sensors is refused; C92_calculated: parameters are calculated from those read."
  },
  {
   "property": "C93",
   "status": "partial",
   "theorems": [
    "Soapy.Props.C93_partial",
    "Soapy.Props.C93_violated"
   ],
   "note": "holds for YAML and for Python files that always set simConfiguration themselves; violated: a Python file that does not set it silently loads the configuration of the file before"
  },
  {
   "property": "C94",
   "status": "partial",
   "theorems": [
    "Soapy.Props.C94_exact",
    "Soapy.Props.C94_value",
    "Soapy.Props.C94_violated",
    "Soapy.Props.C94_decimals"
   ],
   "note": "exact condition proved; violated for parameters that calcParams does not convert, e.g. loopTime: 2e-3 is a string"
  },
  {
   "property": "C95",
   "status": "partial",
   "theorems": [
    "Soapy.Props.C95_history",
    "Soapy.Props.C95_history_partial",
    "Soapy.Props.C95_no_exceptions",
    "Soapy.Props.C95_violated"
   ],
   "note": "violated: after reset_loop instantaneous Strehl ratios, wavefront errors, residuals, images and laser images of the run before remain; rows of residuals and laser images that are not reached are uninitialised memory; instantaneous fields raise IndexError after nIters frames"
  },
  {
   "property": "C96",
   "status": "partial",
   "theorems": [
    "Soapy.Props.C96_cube_partial",
    "Soapy.Props.C96_limit",
    "Soapy.Props.C96_violated",
    "Soapy.Props.C96_nothing"
   ],
   "note": "proved for one run of up to nIters frames; violated beyond: no more than nIters frames can ever be run after aoinit, the first frame after reset_loop and frame nIters of a threaded loop raise OSError; C96_nothing: what saving raises before the first frame."
  },
  {
   "property": "C97",
   "status": "partial",
   "theorems": [
    "Soapy.Props.C97_no_mixing",
    "Soapy.Props.C97_results_stay",
    "Soapy.Props.C97_sequential_partial",
    "Soapy.Props.C97_violated"
   ],
   "note": "no mixing and no later change are proved for all interleavings; getting a directory is proved for one process at a time and violated for two (same second, or both finding that the directory of the name is missing): one raises FileExistsError"
  },
  {
   "property": "C98",
   "status": "partial",
   "theorems": [
    "Soapy.Props.C98_infinite_axis",
    "Soapy.Props.C98_infinite_other_partial",
    "Soapy.Props.C98_finite_partial",
    "Soapy.Props.C98_violated"
   ],
   "note": "violated: three conventions. Infinite screens along an axis move by +v(cos, sin), at any other angle by v(cos, -sin), and finite screens by -v(cos, sin); each is proved"
  },
  {
   "property": "C99",
   "status": "partial",
   "theorems": [
    "Soapy.Props.C99_same_seed_same_run",
    "Soapy.Props.C99_violated",
    "Soapy.Props.C99_unseeded",
    "Soapy.Props.C99_reset"
   ],
   "note": "proved for systems without sensor noise; violated with noise, which comes from numpy's global generator that the seed does not reach"
  },
  {
   "property": "C100",
   "status": "partial",
   "theorems": [
    "Soapy.Props.C100_turbulence_alone",
    "Soapy.Props.C100_finite_learning",
    "Soapy.Props.C100_same_seed_same_turbulence",
    "Soapy.Props.C100_first_layers",
    "Soapy.Props.C100_learning_shifts",
    "Soapy.Props.C100_violated"
   ],
   "note": "proved for reconstructors that do not learn, and for learning ones with finite screens and the default learnAtmos. Violated otherwise: making a LearnAndApply reconstructor takes numbers from the generator of infinite or random screens, and with another learnAtmos uses up learnIters frames (C100_learning_shifts), so a run that loads the matrices sees other turbulence. All for one size of the screens, which depends on the directions of guide stars and targets: see C142"
  },
  {
   "property": "C101",
   "status": "partial",
   "theorems": [
    "Soapy.Props.C101_range",
    "Soapy.Props.C101_reference",
    "Soapy.Props.C101_flat_is_best",
    "Soapy.Props.C101_best_iff_flat",
    "Soapy.Props.C101_geometric",
    "Soapy.Props.C101_violated",
    "Soapy.Props.C101_last",
    "Soapy.Props.C101_mode"
   ],
   "note": "range, bound and case of equality proved; violated for the long exposure: the fibre overrides calcInstStrehl without setting longExpStrehl, which is 0 for ever"
  },
  {
   "property": "C102",
   "status": "partial",
   "theorems": [
    "Soapy.Props.C102_offset",
    "Soapy.Props.C102_offset_pad_one",
    "Soapy.Props.C102_local",
    "Soapy.Props.C102_ramp",
    "Soapy.Props.C102_plate_partial",
    "Soapy.Props.C102_detector_partial",
    "Soapy.Props.C102_violated"
   ],
   "note": "violated: phase is sampled at pad + kP/(F-1), the mask at pad + k(P-1)/(F-1), so they are up to one pixel apart, one row after the pupil is seen, and a tilt moves the image by wN/(F-1) instead of wN/F elements. What the code does is proved exactly; the shift theorems need an even FFT size and a displacement of a whole number of elements"
  },
  {
   "property": "C103",
   "status": "partial",
   "theorems": [
    "Soapy.Props.C103_convolve",
    "Soapy.Props.C103_commutes",
    "Soapy.Props.C103_light",
    "Soapy.Props.C103_middle",
    "Soapy.Props.C103_class",
    "Soapy.Props.C103_uplink",
    "Soapy.Props.C103_uplink_light",
    "Soapy.Props.C103_uplink_middle",
    "Soapy.Props.C103_violated"
   ],
   "note": "what is computed is proved for every image; violated: the light is divided by the number of pixels, the class turns the image by 180 degrees, odd sizes move it by one pixel, and the uplink blur moves a centred spot by half an FFT element (while the reference is taken without uplink). The class and the uplink are proved for even sizes"
  },
  {
   "property": "C104",
   "status": "partial",
   "theorems": [
    "Soapy.Props.C104_scipy",
    "Soapy.Props.C104_scipy_kept",
    "Soapy.Props.C104_pyfftw_partial",
    "Soapy.Props.C104_overwritten",
    "Soapy.Props.C104_smaller",
    "Soapy.Props.C104_gpu",
    "Soapy.Props.C104_documented",
    "Soapy.Props.C104_scipy_input",
    "Soapy.Props.C104_fallback",
    "Soapy.Props.C104_violated",
    "Soapy.Props.C104_choice"
   ],
   "note": "scipy is proved for every sequence of operations, pyfftw for every sequence that does not set inputData and data of full size; violated: pyfftw ignores an array set as documented, returns the same array each time and refuses smaller data; the GPU transforms in the other direction; scipy takes the caller's array as its own input array"
  },
  {
   "property": "C105",
   "status": "partial",
   "theorems": [
    "Soapy.Props.C105_binImgs_partial",
    "Soapy.Props.C105_refused",
    "Soapy.Props.C105_small",
    "Soapy.Props.C105_light_partial",
    "Soapy.Props.C105_factor",
    "Soapy.Props.C105_slow",
    "Soapy.Props.C105_place_partial",
    "Soapy.Props.C105_violated",
    "Soapy.Props.C105_light",
    "Soapy.Props.C105_negative"
   ],
   "note": "proved for every image not smaller than the factor, every schedule, and disjoint windows on a dark detector; violated: binImgs turns an image narrower than the factor into an empty one without complaint, the plain placing overwrites instead of adding, and chop_subaps_efield cannot be compiled (numpy.prange); C105_light: each pixel receives the light of the windows that cover it; negative factors refused"
  },
  {
   "property": "C106",
   "status": "partial",
   "theorems": [
    "Soapy.Props.C106_exclusive_partial",
    "Soapy.Props.C106_one_imat",
    "Soapy.Props.C106_stop_partial",
    "Soapy.Props.C106_stop_ends_partial",
    "Soapy.Props.C106_lost_stop",
    "Soapy.Props.C106_violated",
    "Soapy.Props.C106_init_stops_partial",
    "Soapy.Props.C106_init_run",
    "Soapy.Props.C106_quiet",
    "Soapy.Props.C106_single"
   ],
   "note": "proved: one calibration at a time always; one job at a time for users who wait; Stop works once the loop thread has begun. Violated: Run, Init, IMat, Frame and Reset do not look whether a loop runs, Init does not wait for the loop it stops, the end of a calibration stops a loop, and a Stop before the thread sets go is lost; C106_single: the buttons for one frame and for a reset."
  },
  {
   "property": "C107",
   "status": "partial",
   "theorems": [
    "Soapy.Props.C107_pyramid_partial",
    "Soapy.Props.C107_runWfs_partial",
    "Soapy.Props.C107_mirror_partial",
    "Soapy.Props.C107_mirror_reset",
    "Soapy.Props.C107_screens",
    "Soapy.Props.C107_runDM",
    "Soapy.Props.C107_mirror_other",
    "Soapy.Props.C107_camera",
    "Soapy.Props.C107_camera_reset",
    "Soapy.Props.C107_reconstruct",
    "Soapy.Props.C107_reconstruct_first",
    "Soapy.Props.C107_shack",
    "Soapy.Props.C107_los",
    "Soapy.Props.C107_violated",
    "Soapy.Props.C107_mirror_screen",
    "Soapy.Props.C107_mirror_other_reset",
    "Soapy.Props.C107_reconstruct_reset",
    "Soapy.Props.C107_phase"
   ],
   "note": "holds for pyramid and Zernike sensors, runWfs, mirrors of the size of the screen until they are reset, and corrected lines of sight; violated by the other parts (C107_violated), whose kept results all show the last frame; the exact contents are proved for every part; C107_phase: phase and residual after a corrected frame."
  },
  {
   "property": "C108",
   "status": "partial",
   "theorems": [
    "Soapy.Props.C108_default_partial",
    "Soapy.Props.C108_default_violated",
    "Soapy.Props.C108_given",
    "Soapy.Props.C108_required_partial",
    "Soapy.Props.C108_required_violated",
    "Soapy.Props.C108_documented_partial",
    "Soapy.Props.C108_length"
   ],
   "note": "nine documented defaults are wrong (simOversize, centThreshold, dm.wfs, dm.gauss_width, ...), four parameters called required may be left out, four parameters have no documented default; all others are proved"
  },
  {
   "property": "C109",
   "status": "partial",
   "theorems": [
    "Soapy.Props.C109_samples",
    "Soapy.Props.C109_tilt_partial",
    "Soapy.Props.C109_detector_partial",
    "Soapy.Props.C109_ratio",
    "Soapy.Props.C109_roundings",
    "Soapy.Props.C109_never",
    "Soapy.Props.C109_inside",
    "Soapy.Props.C109_registration",
    "Soapy.Props.C109_mask",
    "Soapy.Props.C109_violated"
   ],
   "note": "the size of a sub-aperture is rounded to whole elements and the samples are (S-1)/(N-1) apart instead of S/N: displacements are off by the product of these factors (0.4 % in sh_8x8, up to over/(2m)+1/S in general) and without roundings always too small. Places of sub-apertures, mask and field are proved."
  },
  {
   "property": "C110",
   "status": "proved",
   "theorems": [
    "Soapy.Props.C110_loop",
    "Soapy.Props.C110_bounded",
    "Soapy.Props.C110_ramp",
    "Soapy.Props.C110_noise",
    "Soapy.Props.C110_response",
    "Soapy.Props.C110_exact",
    "Soapy.Props.C110_noise_any",
    "Soapy.Props.C110_noise_one",
    "Soapy.Props.C110_noise_exact",
    "Soapy.Props.C110_ramp_exact",
    "Soapy.Props.C110_ramp_stable"
   ],
   "note": "C110_loop proves that what is left in a run of the loop is the recursion lag; the other theorems are about lag. Errors include what the mirrors cannot make. The noise formulas are for the errors of one component; C110_response writes what is left as a convolution with the answer to a step, for every delay; C110_exact and C110_noise_exact give the exact range of gains; C110_ramp_exact and C110_ramp_stable are the steady drift for every stable gain (Props/WholeExact.lean)"
  },
  {
   "property": "C111",
   "status": "proved",
   "theorems": [
    "Soapy.Props.C111_poke",
    "Soapy.Props.C111_whole",
    "Soapy.Props.C111_nulls",
    "Soapy.Props.C111_follows",
    "Soapy.Props.C111_undoes",
    "Soapy.Props.C111_gradient",
    "Soapy.Props.C111_no_mirror",
    "Soapy.Props.C111_nulls_of",
    "Soapy.Props.C111_nulls_exact",
    "Soapy.Props.C111_nulls_only",
    "Soapy.Props.C111_follows_exact"
   ],
   "note": "Composition of the models of mirrors, lines of sight, calibration and loop; exact arithmetic, geometric propagation, linear sensors without noise; The _exact theorems (Props/WholeExact.lean) hold for all gains between 0 and 2 sin(pi/(2(2d+1))); C111_nulls_only shows that outside of this range the commands do not settle"
  },
  {
   "property": "C112",
   "status": "partial",
   "theorems": [
    "Soapy.Props.C112_exact",
    "Soapy.Props.C112_bounds",
    "Soapy.Props.C112_loses",
    "Soapy.Props.C112_sight",
    "Soapy.Props.C112_frames_partial",
    "Soapy.Props.C112_integer",
    "Soapy.Props.C112_only_integer",
    "Soapy.Props.C112_violated"
   ],
   "note": "Violated: linear interpolation between rows smooths the turbulence by an amount that changes from frame to frame. Exact loss, bounds, and the wind speeds for which the property holds are proved; finite screens (spline interpolation) are not covered."
  },
  {
   "property": "C113",
   "status": "partial",
   "theorems": [
    "Soapy.Props.C113_exact_partial",
    "Soapy.Props.C113_in_use",
    "Soapy.Props.C113_set",
    "Soapy.Props.C113_fov_ignored",
    "Soapy.Props.C113_remedy",
    "Soapy.Props.C113_sodium",
    "Soapy.Props.C113_violated",
    "Soapy.Props.C113_sodium_none"
   ],
   "note": "Violated for the parameters filled in at loading; the exact set of (configuration, parameter, value) for which it holds is proved."
  },
  {
   "property": "C114",
   "status": "partial",
   "theorems": [
    "Soapy.Props.C114_ignored",
    "Soapy.Props.C114_reads",
    "Soapy.Props.C114_recalc_partial",
    "Soapy.Props.C114_reinit",
    "Soapy.Props.C114_how_wrong",
    "Soapy.Props.C114_violated",
    "Soapy.Props.C114_conjugate"
   ],
   "note": "Violated: assignments have no effect until the coordinates are recalculated. What every sequence of operations does is proved; C114_conjugate: a mirror at the height of a layer is looked at in the same places."
  },
  {
   "property": "C115",
   "status": "proved",
   "theorems": [
    "Soapy.Props.C115_separations",
    "Soapy.Props.C115_rows",
    "Soapy.Props.C115_structure",
    "Soapy.Props.C115_matrices",
    "Soapy.Props.C115_far",
    "Soapy.Props.C115_start",
    "Soapy.Props.C115_mean",
    "Soapy.Props.C115_limit"
   ],
   "note": "Covariances between rows not further apart than the stencil; C115_far and C115_limit show that this cannot be extended to rows further apart. What aotools does with the separations is assumed."
  },
  {
   "property": "C116",
   "status": "partial",
   "theorems": [
    "Soapy.Props.C116_piston_partial",
    "Soapy.Props.C116_flat_partial",
    "Soapy.Props.C116_mask_violated",
    "Soapy.Props.C116_noise_violated"
   ],
   "note": "Proved for an unchanged binary mask, at least 32 modulation points and no read noise; violated after setMask and with read noise (witnesses). Fewer than 32 points: see C62."
  },
  {
   "property": "C117",
   "status": "partial",
   "theorems": [
    "Soapy.Props.C117_roof",
    "Soapy.Props.C117_faces",
    "Soapy.Props.C117_apex",
    "Soapy.Props.C117_image_partial",
    "Soapy.Props.C117_mask",
    "Soapy.Props.C117_odd_violated"
   ],
   "note": "Even separations; odd separations are half a pixel off (C117_odd_violated)."
  },
  {
   "property": "C118",
   "status": "proved",
   "theorems": [
    "Soapy.Props.C118_convolution",
    "Soapy.Props.C118_rows",
    "Soapy.Props.C118_columns",
    "Soapy.Props.C118_transposed",
    "Soapy.Props.C118_slopes",
    "Soapy.Props.C118_equal_light"
   ],
   "note": "Exact arithmetic; at least 32 modulation points (with fewer, what is left in the FFT buffers is added, C62)."
  },
  {
   "property": "C119",
   "status": "partial",
   "theorems": [
    "Soapy.Props.C119_pairs",
    "Soapy.Props.C119_lower_partial",
    "Soapy.Props.C119_one",
    "Soapy.Props.C119_long_partial",
    "Soapy.Props.C119_long_lower_partial",
    "Soapy.Props.C119_oversampled_partial",
    "Soapy.Props.C119_violated",
    "Soapy.Props.C119_mask"
   ],
   "note": "Proved for the phase and mask on the grid of the camera, uncropped images; the reported wavefront error is made on another grid, for which the relation fails (C119_violated). Cropped images: see C86_cropping_violated."
  },
  {
   "property": "C120",
   "status": "partial",
   "theorems": [
    "Soapy.Props.C120_light",
    "Soapy.Props.C120_light_up",
    "Soapy.Props.C120_path",
    "Soapy.Props.C120_ground",
    "Soapy.Props.C120_empty_layer",
    "Soapy.Props.C120_vacuum",
    "Soapy.Props.C120_conjugate_partial",
    "Soapy.Props.C120_conjugate_violated"
   ],
   "note": "All proved except mirrors above the ground: `performCorrection` takes the mirrors' phase away at the ground whatever their altitude, so a conjugated mirror does not remove its layer (C120_conjugate_violated); at the ground it does (C120_conjugate_partial)."
  },
  {
   "property": "C121",
   "status": "partial",
   "theorems": [
    "Soapy.Props.C121_records",
    "Soapy.Props.C121_blind",
    "Soapy.Props.C121_violated"
   ],
   "note": "Violated: `makePhasePhys` only writes `EField`. Proved is what is recorded instead: minus the mirrors (C121_records), the same for all turbulence (C121_blind)."
  },
  {
   "property": "C122",
   "status": "partial",
   "theorems": [
    "Soapy.Props.C122_mean",
    "Soapy.Props.C122_variance",
    "Soapy.Props.C122_independent",
    "Soapy.Props.C122_total",
    "Soapy.Props.C122_counts",
    "Soapy.Props.C122_pyramid_partial",
    "Soapy.Props.C122_pyramid_violated"
   ],
   "note": "Proved in full for the Shack-Hartmann sensor; the pyramid sensor never applies photon noise. Assumes the laws of numpy.random."
  },
  {
   "property": "C123",
   "status": "partial",
   "theorems": [
    "Soapy.Props.C123_sh",
    "Soapy.Props.C123_independent",
    "Soapy.Props.C123_calibration",
    "Soapy.Props.C123_gradient_partial",
    "Soapy.Props.C123_gradient_violated",
    "Soapy.Props.C123_pyramid_violated",
    "Soapy.Props.C123_tilt_violated"
   ],
   "note": "Proved for the Shack-Hartmann sensor; fails for the gradient and pyramid sensors."
  },
  {
   "property": "C124",
   "status": "partial",
   "theorems": [
    "Soapy.Props.C124_surface",
    "Soapy.Props.C124_loop",
    "Soapy.Props.C124_calibration",
    "Soapy.Props.C124_whole",
    "Soapy.Props.C124_inversion",
    "Soapy.Props.C124_inversion_partial",
    "Soapy.Props.C124_violated"
   ],
   "note": "Proved in full for mirrors, calibration and loop; the inversion respects units for one common factor or for well-conditioned matrices only, and C124_violated shows that in general it does not."
  },
  {
   "property": "C125",
   "status": "partial",
   "theorems": [
    "Soapy.Props.C125_unique",
    "Soapy.Props.C125_bounded",
    "Soapy.Props.C125_projection",
    "Soapy.Props.C125_modes",
    "Soapy.Props.C125_least",
    "Soapy.Props.C125_all_dropped",
    "Soapy.Props.C125_penrose",
    "Soapy.Props.C125_default",
    "Soapy.Props.C125_scaled",
    "Soapy.Props.C125_loop_partial",
    "Soapy.Props.C125_initial",
    "Soapy.Props.C125_unseen",
    "Soapy.Props.C125_gains_violated",
    "Soapy.Props.C125_exists"
   ],
   "note": "Everything about the matrix is proved in full; in the loop dropped modes stay away only with equal gains (C125_gains_violated). Exact arithmetic; trusts that numpy.linalg.svd returns a decomposition."
  },
  {
   "property": "C126",
   "status": "proved",
   "theorems": [
    "Soapy.Props.C126_loop",
    "Soapy.Props.C126_sys",
    "Soapy.Props.C126_plants",
    "Soapy.Props.C126_whole",
    "Soapy.Props.C126_sums",
    "Soapy.Props.C126_quiet"
   ],
   "note": "For the simulation of C111: geometric propagation, sensors with linear measurements (such as the gradient sensor, C52), exact arithmetic."
  },
  {
   "property": "C127",
   "status": "partial",
   "theorems": [
    "Soapy.Props.C127_object",
    "Soapy.Props.C127_unset",
    "Soapy.Props.C127_round",
    "Soapy.Props.C127_injective",
    "Soapy.Props.C127_real_partial",
    "Soapy.Props.C127_tables",
    "Soapy.Props.C127_len"
   ],
   "note": "Proved for the dictionary in memory. A laser appears in it as the LgsConfig object itself (readable through __getitem__), so as text the dictionary of a system with lasers cannot be read back; this is stated in the model, not as a theorem. Real calculation: cameras of zero pixels are left out, as in C35. len() of a sensor's configuration is one too large (C127_len)."
  },
  {
   "property": "C128",
   "status": "proved",
   "theorems": [
    "Soapy.Props.C128_loop",
    "Soapy.Props.C128_initial",
    "Soapy.Props.C128_plant",
    "Soapy.Props.C128_poke",
    "Soapy.Props.C128_product",
    "Soapy.Props.C128_sys",
    "Soapy.Props.C128_calibrate",
    "Soapy.Props.C128_pinv",
    "Soapy.Props.C128_control",
    "Soapy.Props.C128_control_exists",
    "Soapy.Props.C128_controls",
    "Soapy.Props.C128_whole"
   ],
   "note": "C128_loop is for arbitrary mirrors, reconstructors and sensors that respect the renumbering; C128_whole for mirrors without rotation, linear sensors read in every frame and the MVM reconstructor, in exact arithmetic."
  },
  {
   "property": "C129",
   "status": "partial",
   "theorems": [
    "Soapy.Props.C129_header",
    "Soapy.Props.C129_partial",
    "Soapy.Props.C129_untouched",
    "Soapy.Props.C129_subaps",
    "Soapy.Props.C129_name",
    "Soapy.Props.C129_violated"
   ],
   "note": "C129_header: the cards that are right whatever happens. C129_partial: gains, positions, number of actuators and wind speeds are right exactly when nothing was changed since initialisation and the wind was not rescaled. Violated otherwise: with tau0 the header gives the wind speeds of the file, not the simulated ones; DMNACTU counts dropped actuators; DMGAIN is the gain at initialisation. A simName with a letter that is not ASCII stops aoinit with ValueError (C129_name)."
  },
  {
   "property": "C130",
   "status": "proved",
   "theorems": [
    "Soapy.Props.C130_axes"
   ],
   "note": "C130_axes. The example shows that the centre of gravity meets the hypothesis (cog_sameAxes) and that frames of a concrete sensor do not raise."
  },
  {
   "property": "C131",
   "status": "proved",
   "theorems": [
    "Soapy.Props.C131_field_stop",
    "Soapy.Props.C131_piston",
    "Soapy.Props.C131_no_stop"
   ],
   "note": "C131_field_stop uses that all light lands on the detector and does not depend on the phase (C43, C87). C131_no_stop: a concrete sensor without field stop, where a quarter wave inside a neighbour changes the measurement, as documented."
  },
  {
   "property": "C132",
   "status": "proved",
   "theorems": [
    "Soapy.Props.C132_brightness",
    "Soapy.Props.C132_filter"
   ],
   "note": "C132_brightness, C132_filter; cog_anyBrightness shows that the centre of gravity meets the hypothesis."
  },
  {
   "property": "C133",
   "status": "proved",
   "theorems": [
    "Soapy.Props.C133_alike",
    "Soapy.Props.C133_tilt",
    "Soapy.Props.C133_removed"
   ],
   "note": "C133_alike, C133_tilt, C133_removed; the example applies the last one to a concrete sensor. Partly lit sub-apertures may measure a tilt differently, so removeTT is not exact for them."
  },
  {
   "property": "C134",
   "status": "proved",
   "theorems": [
    "Soapy.Props.C134_mean",
    "Soapy.Props.C134_between",
    "Soapy.Props.C134_steady",
    "Soapy.Props.C134_order"
   ],
   "note": "C134_mean (all exposures of a session), C134_between (no field stop), C134_steady, C134_order. With a laser uplink the light is blurred again in every frame, see C71."
  },
  {
   "property": "C135",
   "status": "partial",
   "theorems": [
    "Soapy.Props.C135_steady_partial",
    "Soapy.Props.C135_gradient",
    "Soapy.Props.C135_pyramid",
    "Soapy.Props.C135_violated",
    "Soapy.Props.C135_pyramid_violated"
   ],
   "note": "Violated: C135_gradient and C135_pyramid show that only the last frame counts; C135_violated and C135_pyramid_violated that this is not the mean. C135_steady_partial: right for a wavefront that does not change."
  },
  {
   "property": "C136",
   "status": "partial",
   "theorems": [
    "Soapy.Props.C136_script",
    "Soapy.Props.C136_levels",
    "Soapy.Props.C136_command",
    "Soapy.Props.C136_number",
    "Soapy.Props.C136_honoured_partial",
    "Soapy.Props.C136_violated",
    "Soapy.Props.C136_shared_violated",
    "Soapy.Props.C136_fresh"
   ],
   "note": "C136_script: scripts show and log what their configuration asks for. Violated by the program soapy: C136_number (-V ends with a TypeError), C136_command (level 2 whatever -d and the configuration file say), C136_violated; C136_shared_violated: the level is shared by all simulations of a process."
  },
  {
   "property": "C137",
   "status": "partial",
   "theorems": [
    "Soapy.Props.C137_view",
    "Soapy.Props.C137_wfe",
    "Soapy.Props.C137_residual_violated"
   ],
   "note": "C137_view and C137_wfe hold in full. Violated for `residual` when no correction is given or the light goes up (C137_residual_violated): it is then in radians."
  },
  {
   "property": "C138",
   "status": "proved",
   "theorems": [
    "Soapy.Props.C138_surface",
    "Soapy.Props.C138_poke",
    "Soapy.Props.C138_calibrate",
    "Soapy.Props.C138_sense",
    "Soapy.Props.C138_loop",
    "Soapy.Props.C138_outside",
    "Soapy.Props.C138_target",
    "Soapy.Props.C138_no_margin"
   ],
   "note": "C138_no_margin shows why beams have to end inside: if a beam fills the screens exactly, the last sample is moved by 1e-9 pixel."
  },
  {
   "property": "C139",
   "status": "proved",
   "theorems": [
    "Soapy.Props.C139_names",
    "Soapy.Props.C139_save",
    "Soapy.Props.C139_never_overwrites",
    "Soapy.Props.C139_mixture",
    "Soapy.Props.C139_twice",
    "Soapy.Props.C139_infinite",
    "Soapy.Props.C139_load",
    "Soapy.Props.C139_accepts",
    "Soapy.Props.C139_reload",
    "Soapy.Props.C139_replay",
    "Soapy.Props.C139_restart",
    "Soapy.Props.C139_rolled",
    "Soapy.Props.C139_make",
    "Soapy.Props.C139_no_resume",
    "Soapy.Props.C139_directory"
   ],
   "note": "C139_mixture: a refused save leaves the screens with smaller numbers behind. C139_restart, C139_rolled, C139_no_resume: the position of the window is not saved, so a run saved half-way begins again; screens in different directories do not meet"
  },
  {
   "property": "C140",
   "status": "proved",
   "theorems": [
    "Soapy.Props.C140_transpose",
    "Soapy.Props.C140_flip",
    "Soapy.Props.C140_comp",
    "Soapy.Props.C140_surface",
    "Soapy.Props.C140_poke",
    "Soapy.Props.C140_calibrate",
    "Soapy.Props.C140_sense",
    "Soapy.Props.C140_loop",
    "Soapy.Props.C140_gradient_transpose",
    "Soapy.Props.C140_gradient_flip",
    "Soapy.Props.C140_quarter",
    "Soapy.Props.C140_half",
    "Soapy.Props.C140_edge"
   ],
   "note": "C140_edge: with a beam that fills the screen the upper end of the coordinates is clipped and the lower is not (lineofsight.py:181), so reversal is seen in the ninth digit; the assumption cannot be dropped."
  },
  {
   "property": "C141",
   "status": "partial",
   "theorems": [
    "Soapy.Props.C141_whole",
    "Soapy.Props.C141_between",
    "Soapy.Props.C141_resume_partial",
    "Soapy.Props.C141_counts",
    "Soapy.Props.C141_records",
    "Soapy.Props.C141_skips",
    "Soapy.Props.C141_extra",
    "Soapy.Props.C141_twice",
    "Soapy.Props.C141_still",
    "Soapy.Props.C141_violated",
    "Soapy.Props.C141_cameras"
   ],
   "note": "Within a frame it fails (C141_violated, the general form is C141_twice): continuing integrates the measurements twice. C141_counts gives what was advanced for every place; C141_cameras: what the cameras are given."
  },
  {
   "property": "C142",
   "status": "partial",
   "theorems": [
    "Soapy.Props.C142_displaced",
    "Soapy.Props.C142_infinite",
    "Soapy.Props.C142_within_partial",
    "Soapy.Props.C142_cameras",
    "Soapy.Props.C142_violated"
   ],
   "note": "Violated for targets further out than everything else (C142_violated, C142_displaced); with infinite screens the stored part has another size (C142_infinite). C138 shows that the loop would be the same if the turbulence above the telescope were."
  },
  {
   "property": "C143",
   "status": "partial",
   "theorems": [
    "Soapy.Props.C143_sight",
    "Soapy.Props.C143_parameters",
    "Soapy.Props.C143_gradient",
    "Soapy.Props.C143_sensors",
    "Soapy.Props.C143_calibration",
    "Soapy.Props.C143_loop",
    "Soapy.Props.C143_wind",
    "Soapy.Props.C143_strength",
    "Soapy.Props.C143_cadence",
    "Soapy.Props.C143_screens_partial",
    "Soapy.Props.C143_violated"
   ],
   "note": "Everything holds except for the inner scale of the screens the simulation makes, which is a millimetre whatever the size (C143_violated); C143_screens_partial: what a layer shows is the same if the inner scale is multiplied too. An outer scale that is left out is a fixed length (hypothesis of C143_parameters)."
  },
  {
   "property": "C144",
   "status": "partial",
   "theorems": [
    "Soapy.Props.C144_levels",
    "Soapy.Props.C144_pictures",
    "Soapy.Props.C144_no_phase",
    "Soapy.Props.C144_bar",
    "Soapy.Props.C144_full_iff",
    "Soapy.Props.C144_numbers",
    "Soapy.Props.C144_remaining",
    "Soapy.Props.C144_from_start",
    "Soapy.Props.C144_before_first",
    "Soapy.Props.C144_colours",
    "Soapy.Props.C144_gain_partial",
    "Soapy.Props.C144_violated"
   ],
   "note": "Levels and colours hold. Violated (C144_violated): the GUI counts frames from 0, so that a run of 10 ends with \"9 of 10\" and a bar at 90 (C144_full_iff: full only from 200 frames on); the remaining time of a continued run is too short by the share of earlier frames (C144_remaining; right from the start, C144_from_start); after a file was opened, and until the next initialisation, gains go to a configuration the loop does not use (C144_gain_partial: right as long as no file is opened)."
  },
  {
   "property": "C145",
   "status": "proved",
   "theorems": [
    "Soapy.Props.C145_describe",
    "Soapy.Props.C145_untagged",
    "Soapy.Props.C145_identifies",
    "Soapy.Props.C145_release",
    "Soapy.Props.C145_checkout",
    "Soapy.Props.C145_archive",
    "Soapy.Props.C145_directory",
    "Soapy.Props.C145_plus"
   ],
   "note": "Commit names are the abbreviated ones git prints; that they are unique in the repository is up to git. C145_plus: why tags with a plus sign are excluded."
  },
  {
   "property": "C146",
   "status": "proved",
   "theorems": [
    "Soapy.Props.C146_run",
    "Soapy.Props.C146_watch",
    "Soapy.Props.C146_harmless",
    "Soapy.Props.C146_ignored",
    "Soapy.Props.C146_unused"
   ],
   "note": "Screens are taken as given: that they do not depend on the field of view of the cameras is C142. Sensors with noise draw from one generator (C99), so C146_unused is about sensors that share no random numbers."
  },
  {
   "property": "C147",
   "status": "proved",
   "theorems": [
    "Soapy.Props.C147_sensor",
    "Soapy.Props.C147_gradient",
    "Soapy.Props.C147_calibration",
    "Soapy.Props.C147_loop",
    "Soapy.Props.C147_strehl",
    "Soapy.Props.C147_whole_waves"
   ],
   "note": "Gradient sensors without noise, geometric propagation. Images of Shack-Hartmann sensors do depend on the wavelength (diffraction)."
  },
  {
   "property": "C148",
   "status": "proved",
   "theorems": [
    "Soapy.Props.C148_frame",
    "Soapy.Props.C148_run",
    "Soapy.Props.C148_later",
    "Soapy.Props.C148_flashes"
   ],
   "note": "Gradient sensors without noise, geometric propagation, runs that do not fail."
  },
  {
   "property": "C149",
   "status": "proved",
   "theorems": [
    "Soapy.Props.C149_frame",
    "Soapy.Props.C149_run",
    "Soapy.Props.C149_poke",
    "Soapy.Props.C149_whole"
   ],
   "note": "Linear sensors without noise (random numbers are shared, so with noise another sensor does change them, see C99), geometric propagation. Which actuators are dropped in a calibration can change with more sensors."
  },
  {
   "property": "C150",
   "status": "proved",
   "theorems": [
    "Soapy.Props.C150_fields",
    "Soapy.Props.C150_reciprocal",
    "Soapy.Props.C150_both",
    "Soapy.Props.C150_grid",
    "Soapy.Props.C150_ground",
    "Soapy.Props.C150_geometric",
    "Soapy.Props.C150_coordinates",
    "Soapy.Props.C150_launch"
   ],
   "note": "A real mask given to the line of sight; the lasers of soapy themselves do not get that far (C64). C150_launch: only beams from the middle of the telescope pass the layers where the light comes down."
  },
  {
   "property": "C151",
   "status": "proved",
   "theorems": [
    "Soapy.Props.C151_frame",
    "Soapy.Props.C151_loop",
    "Soapy.Props.C151_calibrate",
    "Soapy.Props.C151_whole",
    "Soapy.Props.C151_dropped"
   ],
   "note": "The mirrors of a group have the same number of elements across. Mirrors of a group follow each other in the configuration; for other orders see C128."
  },
  {
   "property": "C152",
   "status": "partial",
   "theorems": [
    "Soapy.Props.C152_exact",
    "Soapy.Props.C152_loop_partial",
    "Soapy.Props.C152_learn",
    "Soapy.Props.C152_elongated",
    "Soapy.Props.C152_uplink",
    "Soapy.Props.C152_ground",
    "Soapy.Props.C152_violated",
    "Soapy.Props.C152_own"
   ],
   "note": "Holds in every frame of the loop without elongation. Violated: `lgs.precorrection` is never cleared, so after the pokes of a calibration the frames of `LearnAndApply.learn` launch the laser through the last poke (`C152_learn`); with elongation it is never set (`C152_elongated`). Without uplink the first corrected frame raises AttributeError (`C152_uplink`); C152_own: arrays of scripts and old correction buffers are not overwritten."
  },
  {
   "property": "C153",
   "status": "partial",
   "theorems": [
    "Soapy.Props.C153_exact",
    "Soapy.Props.C153_background",
    "Soapy.Props.C153_moves",
    "Soapy.Props.C153_peak_partial",
    "Soapy.Props.C153_measure_partial",
    "Soapy.Props.C153_own_never",
    "Soapy.Props.C153_wrong_shape",
    "Soapy.Props.C153_shapes",
    "Soapy.Props.C153_pad",
    "Soapy.Props.C153_padded",
    "Soapy.Props.C153_two",
    "Soapy.Props.C153_violated"
   ],
   "note": "C153_exact gives every pixel of the correlation images; C153_moves and C153_background hold for every reference. C153_measure_partial: the displacement measured is that of sub-aperture k + ceil(K/2), for references that are the same turned by 180 degrees and without padding. C153_own_never: with two or more sub-apertures no measurement depends on its own image. C153_padded: with padding all measurements are off by its width. C153_wrong_shape: a reference of another shape makes the sensor blind. C153_violated has witnesses for the three clauses."
  },
  {
   "property": "C154",
   "status": "proved",
   "theorems": [
    "Soapy.Props.C154_whole",
    "Soapy.Props.C154_superpose",
    "Soapy.Props.C154_white",
    "Soapy.Props.C154_budget",
    "Soapy.Props.C154_factor",
    "Soapy.Props.C154_factor_zero"
   ],
   "note": "C154_budget is the error budget; C154_factor and C154_factor_zero are about the factor in it. The hypotheses on the simulation are those of C111; WhiteMeas.exists shows that such noise exists for any number of measurements and frames."
  },
  {
   "property": "C155",
   "status": "proved",
   "theorems": [
    "Soapy.Props.C155_finds",
    "Soapy.Props.C155_left",
    "Soapy.Props.C155_nulls",
    "Soapy.Props.C155_follows",
    "Soapy.Props.C155_reports",
    "Soapy.Props.C155_long"
   ],
   "note": "C155_left is the general formula, with noise; C155_nulls and C155_reports are the still case and C155_follows the moving one. Makes.exists shows that there is such turbulence for all commands. The hypotheses on the simulation are those of C111; C155_long: also the Strehl ratio of long exposures tends to one."
  },
  {
   "property": "C156",
   "status": "proved",
   "theorems": [
    "Soapy.Props.C156_budget",
    "Soapy.Props.C156_end",
    "Soapy.Props.C156_same"
   ],
   "note": "C156_budget is the general formula; C156_end and C156_same are the still case. The hypotheses on the simulation are those of C111."
  },
  {
   "property": "C157",
   "status": "proved",
   "theorems": [
    "Soapy.Props.C157_loop",
    "Soapy.Props.C157_apart",
    "Soapy.Props.C157_measured",
    "Soapy.Props.C157_budget",
    "Soapy.Props.C157_end",
    "Soapy.Props.C157_weights"
   ],
   "note": "Hypotheses on the simulation as in C111; delays are natural numbers of frames."
  },
  {
   "property": "C158",
   "status": "proved",
   "theorems": [
    "Soapy.Props.C158_loop",
    "Soapy.Props.C158_whole",
    "Soapy.Props.C158_end",
    "Soapy.Props.C158_pinv"
   ],
   "note": "C158_loop allows different gains and modes for actuators that the control matrix does not mix, and so contains C110_loop and C157_loop."
  },
  {
   "property": "C159",
   "status": "proved",
   "theorems": [
    "Soapy.Props.C159_loop",
    "Soapy.Props.C159_last",
    "Soapy.Props.C159_last_exact",
    "Soapy.Props.C159_mean_stable",
    "Soapy.Props.C159_exact",
    "Soapy.Props.C159_mean_exact",
    "Soapy.Props.C159_whole",
    "Soapy.Props.C159_still",
    "Soapy.Props.C159_still_mean",
    "Soapy.Props.C159_bounded"
   ],
   "note": "For delays longer than an exposure the averaging sensor has a sufficient condition only (g <= 1, g d < e); C159_whole, C159_still and C159_still_mean are about the whole simulation of C111 with slow sensors; C159_bounded bounds what is left of moving turbulence with noisy, averaging sensors."
  },
  {
   "property": "C160",
   "status": "proved",
   "theorems": [
    "Soapy.Props.C160_loop",
    "Soapy.Props.C160_balance",
    "Soapy.Props.C160_average",
    "Soapy.Props.C160_shared"
   ],
   "note": "C160_balance and C160_average are about averaging sensors without noise and need no assumption on the control matrix."
  },
  {
   "property": "C161",
   "status": "partial",
   "theorems": [
    "Soapy.Props.C161_read",
    "Soapy.Props.C161_current",
    "Soapy.Props.C161_crop",
    "Soapy.Props.C161_apos",
    "Soapy.Props.C161_violated"
   ],
   "note": "Proved for footprints of at least a pixel; equality with the current line of sight (with the coordinates of the position exchanged, and the tangent of the angle in place of the angle) where the required phase covers an even number of screen pixels. Violated for odd numbers, footprints below a pixel and `apos` (C161_violated, C161_apos)."
  },
  {
   "property": "C162",
   "status": "partial",
   "theorems": [
    "Soapy.Props.C162_frame",
    "Soapy.Props.C162_conjugate",
    "Soapy.Props.C162_violated"
   ],
   "note": "C162_frame and C162_conjugate are proved in general (the latter downwards). Violated: `frame` returns radians without correction and nanometres with it; upwards a mirror with the shape of the layer doubles it; a layer above the star is an error unless the output has the size of the simulation (C162_violated)."
  },
  {
   "property": "C163",
   "status": "partial",
   "theorems": [
    "Soapy.Props.C163_down_violated",
    "Soapy.Props.C163_up",
    "Soapy.Props.C163_partial",
    "Soapy.Props.C163_violated"
   ],
   "note": "C163_down_violated holds for all ascending altitudes: downwards the light travels twice the height of the highest layer less that of the lowest, and meets every layer but the highest at the ground or below. Right for a single layer downwards and for a lowest layer at the ground upwards (C163_partial); C163_up gives the end point upwards in general."
  },
  {
   "property": "C164",
   "status": "proved",
   "theorems": [
    "Soapy.Props.C164_loop",
    "Soapy.Props.C164_bounded",
    "Soapy.Props.C164_converges",
    "Soapy.Props.C164_gain",
    "Soapy.Props.C164_gain_exact",
    "Soapy.Props.C164_exchanged",
    "Soapy.Props.C164_whole",
    "Soapy.Props.C164_stored",
    "Soapy.Props.C164_mode",
    "Soapy.Props.C164_mode_still",
    "Soapy.Props.C164_modes_exact",
    "Soapy.Props.C164_follows"
   ],
   "note": "Closed-loop mirrors, linear sensors. The condition on \u03b5 is sufficient; for a pure factor C164_gain_exact gives the exact range, and C164_exchanged shows that some condition is needed; With one gain and a full set of (rational) eigenvectors C164_modes_exact gives the exact condition."
  },
  {
   "property": "C165",
   "status": "proved",
   "theorems": [
    "Soapy.Props.C165_periodic",
    "Soapy.Props.C165_vibration",
    "Soapy.Props.C165_factor",
    "Soapy.Props.C165_reduced",
    "Soapy.Props.C165_amplified",
    "Soapy.Props.C165_slow",
    "Soapy.Props.C165_whole_periodic",
    "Soapy.Props.C165_whole_vibration",
    "Soapy.Props.C165_errors",
    "Soapy.Props.C165_errors_vibration",
    "Soapy.Props.C165_sum",
    "Soapy.Props.C165_mean",
    "Soapy.Props.C165_whole_mean",
    "Soapy.Props.C165_waterbed",
    "Soapy.Props.C165_average",
    "Soapy.Props.C165_somewhere",
    "Soapy.Props.C165_errors_waterbed",
    "Soapy.Props.C165_errors_average",
    "Soapy.Props.C165_band"
   ],
   "note": "Aberrations are rational in the model; a vibration is met up to any \u03b7, and the bound is a fixed multiple of \u03b7 plus any \u03b5; Errors of measurement leave the factor minus one; the sum over a long exposure stays bounded; The product over evenly spread frequencies tends to 2 and the mean logarithm to 0 (waterbed); For errors of measurement the mean logarithm of the factor is that of the gain; A band in which at most \u03c1 is left bounds from below the largest amplification."
  },
  {
   "property": "C166",
   "status": "proved",
   "theorems": [
    "Soapy.Props.C166_square",
    "Soapy.Props.C166_bounded",
    "Soapy.Props.C166_no_delay",
    "Soapy.Props.C166_one_frame",
    "Soapy.Props.C166_best",
    "Soapy.Props.C166_whole",
    "Soapy.Props.C166_floor",
    "Soapy.Props.C166_delay_costs",
    "Soapy.Props.C166_settles",
    "Soapy.Props.C166_whole_floor"
   ],
   "note": "The random walk is a hypothesis on the turbulence as the control matrix sees it, not derived from the phase screens; For any delay the limit exists (C166_settles) and no gain leaves less than d + 1 times the variance of a step (C166_floor, C166_whole_floor)."
  }
 ]
}