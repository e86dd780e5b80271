{
 "claims": [
  {
   "property": "C01",
   "status": "partial",
   "theorems": [
    "Mapleaf.SimDef.write_reload_partial",
    "Mapleaf.SimDef.reload_iff_aligned",
    "Mapleaf.SimDef.write_reload_violated",
    "Mapleaf.SimDef.write_reload_hash_violated",
    "Mapleaf.SimDef.written_layout"
   ],
   "note": "Exact condition for write/reload to succeed; fails in general (two witnesses)."
  },
  {
   "property": "C02",
   "status": "partial",
   "theorems": [
    "Mapleaf.SimDef.prepLines_spec",
    "Mapleaf.SimDef.blank_or_comment_line_ignored",
    "Mapleaf.SimDef.comment_line_blank",
    "Mapleaf.SimDef.trailing_comment_ignored",
    "Mapleaf.SimDef.content_escape",
    "Mapleaf.SimDef.whitespace_irrelevant_partial",
    "Mapleaf.SimDef.derived_indentation_violated"
   ],
   "note": "White space is significant on lines inside a derived-dictionary block in one case (witness)."
  },
  {
   "property": "C03",
   "status": "partial",
   "theorems": [
    "Mapleaf.SimDef.load_is_assignments",
    "Mapleaf.SimDef.includePath_ok_iff",
    "Mapleaf.SimDef.duplicate_rejected",
    "Mapleaf.SimDef.loaded_value",
    "Mapleaf.SimDef.include_overwrites_violated",
    "Mapleaf.SimDef.derived_duplicate_violated"
   ],
   "note": "Duplicates among plain assignments are rejected; includes and derived dictionaries overwrite silently (witnesses)."
  },
  {
   "property": "C04",
   "status": "partial",
   "theorems": [
    "Mapleaf.SimDef.getValue_ok_iff",
    "Mapleaf.SimDef.getValue_error_iff",
    "Mapleaf.SimDef.getValue_readonly",
    "Mapleaf.SimDef.classBased_spec",
    "Mapleaf.SimDef.history_refines_map_partial",
    "Mapleaf.SimDef.get_after_set",
    "Mapleaf.SimDef.setIfAbsent_violated",
    "Mapleaf.SimDef.removeKey_violated"
   ],
   "note": "Precedence and read-only reads in full; history refinement for keys without surrounding white space in removeKey/setIfAbsent (witnesses for the rest)."
  },
  {
   "property": "C05",
   "status": "proved",
   "theorems": [
    "Mapleaf.SimDef.isSubKey_iff",
    "Mapleaf.SimDef.mem_getSubKeys_iff",
    "Mapleaf.SimDef.getSubKeys_sublist",
    "Mapleaf.SimDef.getSubKeys_nodup",
    "Mapleaf.SimDef.mem_getImmediateSubKeys_iff",
    "Mapleaf.SimDef.getImmediateSubKeys_nodup",
    "Mapleaf.SimDef.mem_getImmediateSubDicts_iff",
    "Mapleaf.SimDef.getImmediateSubDicts_nodup",
    "Mapleaf.SimDef.subKeys_partition",
    "Mapleaf.SimDef.findKeysContaining_spec",
    "Mapleaf.SimDef.getImmediateSubKey_ok",
    "Mapleaf.SimDef.getImmediateSubKey_error"
   ],
   "note": ""
  },
  {
   "property": "C06",
   "status": "partial",
   "theorems": [
    "Mapleaf.SimDef.shlexWs_iff",
    "Mapleaf.SimDef.shlex_last",
    "Mapleaf.SimDef.shlex_word",
    "Mapleaf.SimDef.shlex_quoted",
    "Mapleaf.SimDef.shlex_open",
    "Mapleaf.SimDef.relocate_spec_partial",
    "Mapleaf.SimDef.commands_spec",
    "Mapleaf.SimDef.removeKeysContaining_spec",
    "Mapleaf.SimDef.replaceInDict_spec_partial",
    "Mapleaf.SimDef.derivedHead_spec",
    "Mapleaf.SimDef.derived_preserves",
    "Mapleaf.SimDef.derived_copy_partial",
    "Mapleaf.SimDef.derived_repeat_violated",
    "Mapleaf.SimDef.derived_bracket_violated",
    "Mapleaf.SimDef.derived_replace_collision_violated"
   ],
   "note": "Proved: the copy, its edits and that existing keys win, when the name of the parent occurs once in each of its keys, the bracket follows the parent name directly and replacements keep the keys distinct. False and shown so without these conditions."
  },
  {
   "property": "C07",
   "status": "proved",
   "theorems": [
    "Mapleaf.SimDef.load_terminates",
    "Mapleaf.SimDef.load_top_terminates",
    "Mapleaf.SimDef.circular_is_cycle",
    "Mapleaf.SimDef.acyclic_never_circular",
    "Mapleaf.SimDef.cycle_reported",
    "Mapleaf.SimDef.cycle_reported_top"
   ],
   "note": ""
  },
  {
   "property": "C08",
   "status": "partial",
   "theorems": [
    "Mapleaf.SimDef.resample_no_drift",
    "Mapleaf.SimDef.resample_succeeds",
    "Mapleaf.SimDef.resample_disabled",
    "Mapleaf.SimDef.resample_nested_violated"
   ],
   "note": "No drift for every definition in which no recorded deviation is itself probabilistic; fails for nested deviations (witness)."
  },
  {
   "property": "C09",
   "status": "proved",
   "theorems": [
    "Mapleaf.SimDef.getString_spec",
    "Mapleaf.SimDef.tryGet_spec",
    "Mapleaf.SimDef.readerList_spec",
    "Mapleaf.SimDef.getDictName_spec"
   ],
   "note": ""
  },
  {
   "property": "C10",
   "status": "proved",
   "theorems": [
    "Mapleaf.LogM.written_table_rectangular"
   ],
   "note": ""
  },
  {
   "property": "C100",
   "status": "partial",
   "theorems": [
    "Mapleaf.Rocket.separation_inertia",
    "Mapleaf.Rocket.separation_lit",
    "Mapleaf.Rocket.burnout_after",
    "Mapleaf.Rocket.tail_after",
    "Mapleaf.Rocket.first_drop",
    "Mapleaf.Rocket.separation_conserves_partial",
    "Mapleaf.Rocket.separation_place_violated",
    "Mapleaf.Rocket.unburnt_violated",
    "Mapleaf.Rocket.separation_state",
    "Mapleaf.Rocket.spent_mass",
    "Mapleaf.Rocket.Trip.duo_separate",
    "Mapleaf.Rocket.Trip.duo_inertia"
   ],
   "note": "Partial because the code does not keep places and unburnt propellant: separation_place_violated and unburnt_violated state by how much."
  },
  {
   "property": "C101",
   "status": "partial",
   "theorems": [
    "Mapleaf.Rocket.descent_settles_partial",
    "Mapleaf.Rocket.sink_iff",
    "Mapleaf.Rocket.sink_pull",
    "Mapleaf.Rocket.settled_speed",
    "Mapleaf.Rocket.flat_level",
    "Mapleaf.Rocket.euler_sinks",
    "Mapleaf.Rocket.euler_speed",
    "Mapleaf.Rocket.coarse_violated",
    "Mapleaf.Rocket.chute_pulled",
    "Mapleaf.Rocket.three_methods",
    "Mapleaf.Motion.Settle.step_near"
   ],
   "note": "Partial because it only holds for small enough steps (coarse_violated shows that long steps diverge); the adaptive methods, and air that changes with altitude, are left out."
  },
  {
   "property": "C102",
   "status": "partial",
   "theorems": [
    "Mapleaf.Rocket.file_iff",
    "Mapleaf.Rocket.row_iff",
    "Mapleaf.Rocket.file_lines",
    "Mapleaf.Rocket.comments_ignored",
    "Mapleaf.Rocket.row_written",
    "Mapleaf.Rocket.file_written",
    "Mapleaf.Rocket.file_thrust",
    "Mapleaf.Rocket.missing_header_violated"
   ],
   "note": "Partial because the header lines are read by their position only: a file with one header line missing is accepted, its first row is lost and read as a header (missing_header_violated)."
  },
  {
   "property": "C103",
   "status": "partial",
   "theorems": [
    "Mapleaf.Motion.Lim.adaptive_converges_partial",
    "Mapleaf.Motion.Lim.adaptive_converges_rough_partial",
    "Mapleaf.Motion.Lim.adaptive_flies",
    "Mapleaf.Motion.Lim.adapt_marchK",
    "Mapleaf.Motion.Lim.ideal_fit",
    "Mapleaf.Motion.Lim.code_near",
    "Mapleaf.Motion.Lim.rkK_converges",
    "Mapleaf.Motion.Lim.rkK_first_order",
    "Mapleaf.Motion.Lim.fall_adapts_partial",
    "Mapleaf.Motion.Lim.target_error_violated"
   ],
   "note": "Partial: the order is shown up to 4 (RK45Adaptive has 5, RK78Adaptive 8), the zeros of the tableaus are 1e-16 in the code so that the error does not vanish with the step; 6-DoF states are the subject of C105. The target error does not bound the error: a force that acts between two stages is not seen at all (target_error_violated)."
  },
  {
   "property": "C104",
   "status": "partial",
   "theorems": [
    "Mapleaf.Rocket.Draw.tube_drawn",
    "Mapleaf.Rocket.Draw.drawn_component",
    "Mapleaf.Rocket.Draw.trans_drawn",
    "Mapleaf.Rocket.Draw.cone_drawn",
    "Mapleaf.Rocket.Draw.ogive_drawn",
    "Mapleaf.Rocket.Draw.nose_pieces",
    "Mapleaf.Rocket.Draw.fins_drawn_partial",
    "Mapleaf.Rocket.Draw.stage_drawn",
    "Mapleaf.Rocket.Draw.stage_outline",
    "Mapleaf.Rocket.Draw.rocket_drawn",
    "Mapleaf.Rocket.Draw.other_fins_violated",
    "Mapleaf.Rocket.Draw.fin_angle_violated",
    "Mapleaf.Rocket.Draw.mass_marker_violated"
   ],
   "note": "Partial: only sets of three or four fins are drawn completely (other_fins_violated), the angle of the first fin is ignored (fin_angle_violated), and masses, motors and recovery systems have no marker (mass_marker_violated). Colours, labels and the window are not modelled."
  },
  {
   "property": "C105",
   "status": "partial",
   "theorems": [
    "Mapleaf.Motion.Turn.rigid_adaptive_converges_partial",
    "Mapleaf.Motion.Turn.rigid_adaptive_rough_partial",
    "Mapleaf.Motion.Turn.body_adaptive_converges_partial",
    "Mapleaf.Motion.Turn.body_adaptive_rough_partial",
    "Mapleaf.Motion.Turn.loose_second_order",
    "Mapleaf.Motion.Turn.loose_first_order",
    "Mapleaf.Motion.Turn.fly_flown",
    "Mapleaf.Motion.Turn.attempt_runs",
    "Mapleaf.Motion.Turn.step_returns",
    "Mapleaf.Motion.Turn.try_returns",
    "Mapleaf.Motion.Turn.turned_near",
    "Mapleaf.Motion.Turn.stages_loose",
    "Mapleaf.Motion.Turn.attempt_loose",
    "Mapleaf.Motion.Turn.log_lip",
    "Mapleaf.Motion.Turn.exp_half_lip",
    "Mapleaf.Motion.Turn.rots_near",
    "Mapleaf.Motion.Turn.near_close",
    "Mapleaf.Motion.Turn.spinning_up"
   ],
   "note": "Partial: second order is shown, not the nominal orders of the methods (for the 3/8 rule tumbling_order_violated of C94 shows that more is false); the error does not vanish with the step because the code replaces zeros by 1e-16; eps is required to be small enough for the motion, and that 1e-16 is small enough is not shown for a given motion; with a fast spin an attempt may raise, and only completed flights are covered, to first order. Rockets of which components have state variables of their own are not covered, and the step sizes requested are a parameter (the controllers are the subject of C22)."
  },
  {
   "property": "C106",
   "status": "partial",
   "theorems": [
    "Mapleaf.Show.shown_iff",
    "Mapleaf.Show.none_shown",
    "Mapleaf.Show.picture_per_word",
    "Mapleaf.Show.flights_kept_partial",
    "Mapleaf.Show.flights_replaced_violated",
    "Mapleaf.Show.apogee_handed_back_violated",
    "Mapleaf.Show.odd_words_violated",
    "Mapleaf.Show.pathPlot_iff",
    "Mapleaf.Show.scatterPlot_iff",
    "Mapleaf.Show.inside_partial",
    "Mapleaf.Show.path_cut_off_violated",
    "Mapleaf.Show.landing_cut_off_violated",
    "Mapleaf.Show.plotLogs_fresh",
    "Mapleaf.Show.columnPictures_iff"
   ],
   "note": "Partial: fails in places. An animation (part of the default value) overwrites the flights handed back by 900 interpolated states, all up to the latest final time, so apogee and flight time change; points can fall outside the box horizontally; None next to other words and repeated words are taken for column names. What matplotlib does with the data is outside the model."
  },
  {
   "property": "C107",
   "status": "partial",
   "theorems": [
    "Mapleaf.Rocket.Part.brakes",
    "Mapleaf.Rocket.Craft.brakes",
    "Mapleaf.Rocket.Craft.rhs_coast",
    "Mapleaf.Rocket.coast_apogee",
    "Mapleaf.Rocket.step_sinks",
    "Mapleaf.Rocket.Craft.step_coast",
    "Mapleaf.Rocket.fly_coast",
    "Mapleaf.Rocket.falls_faster_violated",
    "Mapleaf.Rocket.Coast.dart_falls"
   ],
   "note": "Partial: the last sentence fails. A rocket that falls tail first is pushed on by the air, since the factor from drag to axial force is positive at every angle of attack. Flat earth, no lateral wind, no launch rail, air density not negative; components with tabulated drag are covered while the rocket does not move tail first (Craft.brakes). The simulated coast is bounded step by step, not by the vacuum apogee; adaptive methods are not covered."
  },
  {
   "property": "C108",
   "status": "partial",
   "theorems": [
    "Mapleaf.Run.Hil.receive_frames",
    "Mapleaf.Run.Hil.sendIMU_spec",
    "Mapleaf.Run.Hil.request_iff",
    "Mapleaf.Run.Hil.perform_spec",
    "Mapleaf.Run.Hil.fly_spec",
    "Mapleaf.Run.Hil.due_times",
    "Mapleaf.Run.Hil.new_spec",
    "Mapleaf.Run.Hil.new_zero",
    "Mapleaf.Run.Hil.setup_spec",
    "Mapleaf.Run.Hil.session_stream",
    "Mapleaf.Run.Hil.perform_runs",
    "Mapleaf.Run.Hil.session_runs",
    "Mapleaf.Run.Hil.answers_in_time",
    "Mapleaf.Run.Hil.hardware_ignored_violated",
    "Mapleaf.Run.Hil.late_answer_violated",
    "Mapleaf.Run.Hil.session_dies_violated",
    "Mapleaf.Run.Hil.sent_early_violated"
   ],
   "note": "Partial: the last sentence fails in every part. The angles answered are stored and never read by the rocket; messages about a step are sent before the wait; one late answer shifts all later angles to the next canard; an orientation due under a parachute, or an answer that is not a number, ends the simulation with an error. Ports, baud rates and the second interface that a dropped stage opens are not modelled."
  },
  {
   "property": "C109",
   "status": "partial",
   "theorems": [
    "Mapleaf.Rocket.FinP.cant_moment",
    "Mapleaf.Rocket.FinP.cant_aoa",
    "Mapleaf.Rocket.FinP.cant_push_partial",
    "Mapleaf.Rocket.finSet_roll",
    "Mapleaf.Rocket.cant_set_partial",
    "Mapleaf.Rocket.cant_start",
    "Mapleaf.Rocket.cant_template_partial",
    "Mapleaf.Rocket.rigid_roll",
    "Mapleaf.Rocket.cant_spin_partial",
    "Mapleaf.Rocket.cant_drag_violated",
    "Mapleaf.Rocket.finsAt_exists",
    "Mapleaf.Rocket.steady_spin"
   ],
   "note": "Partial: the direction needs the drag along the chord to be negligible (exact condition in cant_start; a fin with enough drag spins the wrong way, cant_drag_violated); the bound on the rate holds with drag. Slender fins between Mach 0.8 and 1.4 are excluded, where the interpolated force can have the wrong sign (roll_transonic_violated, C42), and cants so large that (1 - cos cant) times the radius of the centre of pressure exceeds the radius of a slice. Flights are solutions of the differential equation, in axial flow."
  },
  {
   "property": "C11",
   "status": "partial",
   "theorems": [
    "Mapleaf.LogM.step_refines",
    "Mapleaf.LogM.history_refines",
    "Mapleaf.LogM.illegal_detected",
    "Mapleaf.LogM.written_cells",
    "Mapleaf.LogM.getValue_spec",
    "Mapleaf.LogM.run_sorted",
    "Mapleaf.LogM.bisectLeft_spec",
    "Mapleaf.LogM.timeStepSizes_spec",
    "Mapleaf.LogM.addColumn_mid_row_violated",
    "Mapleaf.LogM.expandColumn_vec",
    "Mapleaf.LogM.expandColumn_scalar",
    "Mapleaf.LogM.expandedName_spec",
    "Mapleaf.LogM.expandedName_ne",
    "Mapleaf.LogM.expand_quaternion_violated",
    "Mapleaf.LogM.expand_fill_violated",
    "Mapleaf.LogM.expand_clobber_violated"
   ],
   "note": "Refinement to a table of rows; column expansion exact for vectors, defective for quaternion columns, non-vector fills and clashing names (witnesses)."
  },
  {
   "property": "C110",
   "status": "proved",
   "theorems": [
    "Mapleaf.Rocket.carried_flight",
    "Mapleaf.Rocket.carried_mission",
    "Mapleaf.Rocket.carried_records",
    "Mapleaf.Rocket.timeStep_carry",
    "Mapleaf.Rocket.timeStep_drift",
    "Mapleaf.Motion.Carry.weights_sum",
    "Mapleaf.Motion.Carry.classicalStep_carry",
    "Mapleaf.Motion.Carry.body_carries",
    "Mapleaf.Rocket.three_carries",
    "Mapleaf.Rocket.rhs_carry",
    "Mapleaf.Rocket.chuteRhs_carry",
    "Mapleaf.Rocket.triggerEvents_same"
   ],
   "note": "Exact for Euler, RK2Heun, RK4 and RK4_3/8; for RK2Midpoint the drift is 1 + 1e-16 times W times the time, because the zeros of the tableau are replaced (weights_sum). Adaptive methods are outside: their step sizes depend on the size of the state."
  },
  {
   "property": "C111",
   "status": "partial",
   "theorems": [
    "Mapleaf.SimDef.Report.default_report",
    "Mapleaf.SimDef.Report.read_records",
    "Mapleaf.SimDef.Report.history_records",
    "Mapleaf.SimDef.Report.column_value",
    "Mapleaf.SimDef.Report.column_long",
    "Mapleaf.SimDef.Report.unused_text",
    "Mapleaf.SimDef.Report.advice_followed",
    "Mapleaf.SimDef.Report.advice_class_violated",
    "Mapleaf.SimDef.Report.code_default_violated",
    "Mapleaf.SimDef.Report.printed_lines"
   ],
   "note": "Proved: the report is exact after every history and never fails, and the advice works for defaults found under the key itself. False and shown so: the line reported for a class-based default (e.g. FinSet.numFins) is without effect in the definition (advice_class_violated), and defaults written in the program are not reported (code_default_violated)."
  },
  {
   "property": "C112",
   "status": "partial",
   "theorems": [
    "Mapleaf.Run.ConvPlot.figures_exact",
    "Mapleaf.Run.ConvPlot.band_contains",
    "Mapleaf.Run.ConvPlot.fs_uncertainty",
    "Mapleaf.Run.ConvPlot.fs_covers",
    "Mapleaf.Run.ConvPlot.glb_covers",
    "Mapleaf.Run.ConvPlot.gcior_covers",
    "Mapleaf.Run.ConvPlot.gci2g_covers_iff",
    "Mapleaf.Run.ConvPlot.fast_covers",
    "Mapleaf.Run.ConvPlot.gci_fine",
    "Mapleaf.Run.ConvPlot.gci_med",
    "Mapleaf.Run.ConvPlot.checkPoint_law",
    "Mapleaf.Run.ConvPlot.checkAll_law",
    "Mapleaf.Run.ConvPlot.saved_figures",
    "Mapleaf.Run.ConvPlot.study_first_order_violated",
    "Mapleaf.Run.ConvPlot.slow_band_violated",
    "Mapleaf.Run.ConvPlot.single_place_violated",
    "Mapleaf.Run.ConvPlot.save_given_axes_violated",
    "Mapleaf.Run.ConvPlot.save_axes_violated"
   ],
   "note": "Proved: the marks of the plots, the exact orders, extrapolated values and the band for power-law data within the limits, at two or more places. False and shown so: the band for an order below the limit (slow_band_violated), the uncertainty of convergence studies for first-order data (study_first_order_violated; gci2g_covers_iff says exactly when it holds), one place (single_place_violated), saving with axes but no figure (save_axes_violated)."
  },
  {
   "property": "C12",
   "status": "partial",
   "theorems": [
    "Mapleaf.LogM.discard_leaves_no_trace",
    "Mapleaf.Motion.RK.discard_count",
    "Mapleaf.Motion.RK.discard_reuse_violated",
    "Mapleaf.Motion.RK.rk78_log_violated"
   ],
   "note": "The log returns to its completed state when exactly the rows of the discarded evaluations are deleted; the number of rows deleted by the simulator is exact iff no derivative was reused, and RK78 cannot be logged at all (witnesses)."
  },
  {
   "property": "C13",
   "status": "partial",
   "theorems": [
    "Mapleaf.Motion.V3.vector_ops_refine",
    "Mapleaf.Motion.V3.pyOps_spec",
    "Mapleaf.Motion.V3.div_spec",
    "Mapleaf.Motion.V3.getItem_spec",
    "Mapleaf.Motion.V3.dot_laws",
    "Mapleaf.Motion.V3.cross_laws",
    "Mapleaf.Motion.V3.length_laws",
    "Mapleaf.Motion.V3.length_eq_norm",
    "Mapleaf.Motion.V3.dot_eq_inner",
    "Mapleaf.Motion.V3.normalize_spec",
    "Mapleaf.Motion.V3.normalize_unique",
    "Mapleaf.Motion.V3.angle_spec",
    "Mapleaf.Motion.splitComponents_spec",
    "Mapleaf.Motion.parseVector_spec",
    "Mapleaf.Motion.parse_print",
    "Mapleaf.Motion.parseVector_ok",
    "Mapleaf.Motion.parse_unclosed_violated"
   ],
   "note": "Algebra and text round trip proved; a missing closing bracket silently drops the last character (witness)."
  },
  {
   "property": "C14",
   "status": "proved",
   "theorems": [
    "Mapleaf.Motion.Quat.quat_ops_refine",
    "Mapleaf.Motion.Quat.qnormalize_spec",
    "Mapleaf.Motion.Quat.rotate_spec",
    "Mapleaf.Motion.Quat.rotate_scale_invariant",
    "Mapleaf.Motion.Quat.rotate_isometry",
    "Mapleaf.Motion.Quat.rotate_product",
    "Mapleaf.Motion.Quat.rotate_inverse",
    "Mapleaf.Motion.Quat.rodrigues",
    "Mapleaf.Motion.Quat.axisAngle_rotates",
    "Mapleaf.Motion.Quat.axisAngle_mul"
   ],
   "note": ""
  },
  {
   "property": "C15",
   "status": "partial",
   "theorems": [
    "Mapleaf.Motion.Quat.axis_angle_roundtrip",
    "Mapleaf.Motion.Quat.axis_angle_recovered",
    "Mapleaf.Motion.Quat.scaleRotation_spec",
    "Mapleaf.Motion.Quat.slerp_exact",
    "Mapleaf.Motion.Quat.slerp_partial",
    "Mapleaf.Motion.Quat.slerp_start_violated",
    "Mapleaf.Motion.Quat.slerp_long_way_violated",
    "Mapleaf.Motion.Quat.rotationVector_roundtrip"
   ],
   "note": "slerp returns only the delta rotation (witnesses); exact description proved."
  },
  {
   "property": "C16",
   "status": "partial",
   "theorems": [
    "Mapleaf.Motion.interpolate_states_partial",
    "Mapleaf.Motion.interpolate_orientation_violated",
    "Mapleaf.Motion.interpolate3_spec"
   ],
   "note": "Position, velocity and angular velocity interpolate; orientation weight is reversed (witness)."
  },
  {
   "property": "C17",
   "status": "proved",
   "theorems": [
    "Mapleaf.Motion.FMS.getAt_preserves",
    "Mapleaf.Motion.FMS.getAt_laws",
    "Mapleaf.Motion.FMS.sum_spec",
    "Mapleaf.Motion.FMS.sum_order_independent",
    "Mapleaf.Motion.FMS.getAt_linear",
    "Mapleaf.Motion.FMS.make_defaults",
    "Mapleaf.Motion.FMS.fms_determined"
   ],
   "note": ""
  },
  {
   "property": "C18",
   "status": "partial",
   "theorems": [
    "Mapleaf.Motion.Inertia.combine_partial",
    "Mapleaf.Motion.Inertia.combine_order_partial",
    "Mapleaf.Motion.Inertia.combine_list_order",
    "Mapleaf.Motion.Inertia.combine_refuses",
    "Mapleaf.Motion.Inertia.combineAboutPoint_spec",
    "Mapleaf.Motion.Inertia.isTotal_unique",
    "Mapleaf.Motion.combine_equal_parts_violated"
   ],
   "note": "Holds unless two value-equal inertias are added with + (witness)."
  },
  {
   "property": "C19",
   "status": "partial",
   "theorems": [
    "Mapleaf.Motion.SL.stateList_history_partial",
    "Mapleaf.Motion.SL.op_refines",
    "Mapleaf.Motion.SL.history_refines_from",
    "Mapleaf.Motion.SL.setCell_other",
    "Mapleaf.Motion.SL.absSum_spec",
    "Mapleaf.Motion.SL.createNamed_iff",
    "Mapleaf.Motion.SL.createNamed_duplicate",
    "Mapleaf.Motion.SL.addVar_duplicate_violated",
    "Mapleaf.Motion.SL.method_name_violated",
    "Mapleaf.Motion.SL.shared_names_violated",
    "Mapleaf.Motion.SL.zip_truncation_violated",
    "Mapleaf.Motion.SL.prefix_equality_violated",
    "Mapleaf.Motion.SL.two_unnamed_violated",
    "Mapleaf.Motion.SL.unknown_name_violated",
    "Mapleaf.Motion.SL.readVar_first",
    "Mapleaf.Motion.SL.readVar_builtin",
    "Mapleaf.Motion.deriv_average",
    "Mapleaf.Motion.deriv_div",
    "Mapleaf.Motion.deriv_sum_step",
    "Mapleaf.Motion.conj_mul_self",
    "Mapleaf.Motion.state_add_neg",
    "Mapleaf.Motion.state_abs",
    "Mapleaf.Motion.state_abs_zero",
    "Mapleaf.Motion.state_abs_opposite_violated"
   ],
   "note": "Refinement for every history with distinct admissible names; each excluded case has a witness."
  },
  {
   "property": "C20",
   "status": "proved",
   "theorems": [
    "Mapleaf.Motion.RK.rkStep_spec",
    "Mapleaf.Motion.RK.attempt_spec",
    "Mapleaf.Motion.RK.classical_order",
    "Mapleaf.Motion.RK.classical_linear",
    "Mapleaf.Motion.RK.classical_times",
    "Mapleaf.Motion.RK.adaptive_order",
    "Mapleaf.Motion.RK.order_conditions"
   ],
   "note": ""
  },
  {
   "property": "C21",
   "status": "partial",
   "theorems": [
    "Mapleaf.Motion.RK.adaptive_accepts",
    "Mapleaf.Motion.RK.accepted_le",
    "Mapleaf.Motion.RK.adaptive_step_admissible",
    "Mapleaf.Motion.RK.large_target_violated",
    "Mapleaf.Motion.RK.sentinel_error_violated"
   ],
   "note": "Holds for targets below 500000 and errors different from the sentinel 1e7; witnesses for both exclusions."
  },
  {
   "property": "C22",
   "status": "partial",
   "theorems": [
    "Mapleaf.Motion.RK.limit_spec",
    "Mapleaf.Motion.RK.next_step_bounded",
    "Mapleaf.Motion.RK.limit_zero",
    "Mapleaf.Motion.RK.elementary_spec",
    "Mapleaf.Motion.RK.elementary_shrinks",
    "Mapleaf.Motion.RK.safety_factor_violated",
    "Mapleaf.Motion.RK.elementary_zero_violated",
    "Mapleaf.GNC.pid_proportional",
    "Mapleaf.GNC.pid_grows_above_target_violated"
   ],
   "note": "Bounds of the factor and of the next step are exact; the safety factor is applied after the clamp, the elementary controller divides by zero at error 0, and the PID controller may grow the step above target (witnesses)."
  },
  {
   "property": "C23",
   "status": "proved",
   "theorems": [
    "Mapleaf.Motion.bisect_spec",
    "Mapleaf.Motion.linInterp_between",
    "Mapleaf.Motion.linInterp_spec",
    "Mapleaf.Motion.linInterp_bounded",
    "Mapleaf.Motion.linInterp_total",
    "Mapleaf.Motion.linInterpWeights_spec"
   ],
   "note": ""
  },
  {
   "property": "C24",
   "status": "partial",
   "theorems": [
    "Mapleaf.Motion.cubicCoefficients_spec",
    "Mapleaf.Motion.cubic_reproduced",
    "Mapleaf.Motion.cubicInterp_spec",
    "Mapleaf.Motion.cubicInterp_parabola_violated"
   ],
   "note": "With given slopes every cubic is reproduced; cubicInterp itself takes finite differences and reproduces straight lines only (witness)."
  },
  {
   "property": "C25",
   "status": "partial",
   "theorems": [
    "Mapleaf.Motion.memo_transparent_iff",
    "Mapleaf.Motion.memo_world_partial",
    "Mapleaf.Motion.memo_stale_violated"
   ],
   "note": "Exact for functions of values; a change of the objects behind equal arguments is not noticed (witness)."
  },
  {
   "property": "C26",
   "status": "partial",
   "theorems": [
    "Mapleaf.Motion.Aero.queries_partial",
    "Mapleaf.Motion.Aero.after_aoa",
    "Mapleaf.Motion.Aero.sideslip_after_aoa_violated"
   ],
   "note": "Holds as long as angle of attack / sideslip are not followed by further queries of the same state; those two write to the cached vector (witness)."
  },
  {
   "property": "C27",
   "status": "proved",
   "theorems": [
    "Mapleaf.Rocket.trigger_sweep",
    "Mapleaf.Rocket.accounted",
    "Mapleaf.Rocket.called_once",
    "Mapleaf.Rocket.calls_in_order",
    "Mapleaf.Rocket.fires_iff_due",
    "Mapleaf.Rocket.reported_wait",
    "Mapleaf.Rocket.waiting_pos"
   ],
   "note": "All worlds, callbacks and histories. Delayed events are re-registered once; the burnout clause of fires_iff_due excludes a stage separation earlier in the same pass (trigger_sweep covers that case)."
  },
  {
   "property": "C28",
   "status": "partial",
   "theorems": [
    "Mapleaf.Rocket.not_overshot_partial",
    "Mapleaf.Rocket.exact_hit_partial",
    "approach_step",
    "Mapleaf.Rocket.fixed_step_violated",
    "Mapleaf.Rocket.same_pass_violated",
    "Mapleaf.Rocket.min_step_violated"
   ],
   "note": "Adaptive methods: no timed event pending at the start of a step is overshot by more than the tolerance / smallest steps. Missing because false: fixed-step methods do not look at events; events registered during the same pass are not considered."
  },
  {
   "property": "C29",
   "status": "partial",
   "theorems": [
    "Mapleaf.Rocket.separate_spec",
    "Mapleaf.Rocket.separate_total",
    "Mapleaf.Rocket.separations_stack",
    "Mapleaf.Rocket.ignites_bottom_partial",
    "Mapleaf.Rocket.upper_motor_not_lit_violated",
    "Mapleaf.Rocket.initIgnition_spec",
    "Mapleaf.Rocket.unpowered_upper_stage",
    "Mapleaf.Rocket.sortByZ_spec",
    "Mapleaf.Rocket.detached_matches",
    "Mapleaf.Rocket.both_stages_dropped_violated",
    "Mapleaf.Rocket.wrong_stage_detached_violated"
   ],
   "note": "Proved: which stage leaves, order, when separation fails, start-up ignition, detached stages. False and shown so: with three or more stages the new bottom motor is never lit (the top one is), two burnout triggers drop two stages in one pass, misnumbered stages detach the wrong one."
  },
  {
   "property": "C30",
   "status": "proved",
   "theorems": [
    "Mapleaf.Rocket.composite_force",
    "Mapleaf.Rocket.composite_force_order",
    "Mapleaf.Rocket.composite_inertia_step",
    "Mapleaf.Rocket.composite_inertia",
    "Mapleaf.Rocket.composite_inertia_order",
    "Mapleaf.Rocket.mass_agrees",
    "Mapleaf.Rocket.rocket_force_spec"
   ],
   "note": "Any nesting of composites."
  },
  {
   "property": "C31",
   "status": "partial",
   "theorems": [
    "Mapleaf.Rocket.build_total",
    "Mapleaf.Rocket.thrust_while_burning",
    "Mapleaf.Rocket.thrust_after_burnout",
    "Mapleaf.Rocket.thrust_before_ignition",
    "Mapleaf.Rocket.impulse_scaled",
    "Mapleaf.Rocket.propellant_scaled",
    "Mapleaf.Rocket.propellant_spec",
    "Mapleaf.Rocket.motor_inertia_partial",
    "Mapleaf.Rocket.rocketShutOff_spec",
    "Mapleaf.Rocket.propInertia_none",
    "Mapleaf.Rocket.ignition_update",
    "Mapleaf.Rocket.thrust_integral",
    "Mapleaf.Rocket.flow_integral",
    "Mapleaf.Rocket.unlit_motor_pushes_violated",
    "Mapleaf.Rocket.equal_propellants_violated",
    "Mapleaf.Rocket.shutoff_unadjusted_violated"
   ],
   "note": "Missing because false: thrust before ignition equals the first curve value; value-equal propellants counted once; shut-off time at start-up ignores the burn time factor."
  },
  {
   "property": "C32",
   "status": "proved",
   "theorems": [
    "Mapleaf.Rocket.deploy_total",
    "Mapleaf.Rocket.init_spec",
    "Mapleaf.Rocket.late_error_violated",
    "Mapleaf.Rocket.pass_effect",
    "Mapleaf.Rocket.flown_invariant",
    "Mapleaf.Rocket.deploys_iff_due",
    "Mapleaf.Rocket.triggerKind_ok_iff",
    "Mapleaf.Rocket.chute_force"
   ],
   "note": "For every interleaving of time steps, registrations and passes. The trigger of a later stage is only checked in flight (late_error_violated)."
  },
  {
   "property": "C33",
   "status": "partial",
   "theorems": [
    "Mapleaf.GNC.cap_spec",
    "Mapleaf.GNC.step_spec",
    "Mapleaf.GNC.step_zero",
    "Mapleaf.GNC.make_bounded",
    "Mapleaf.GNC.integral_bounded",
    "Mapleaf.GNC.unlimited_history",
    "Mapleaf.GNC.constant_error",
    "Mapleaf.GNC.vecStep_spec",
    "Mapleaf.GNC.gainTable_drops_limit",
    "Mapleaf.GNC.gainTable_limit_violated"
   ],
   "note": "Bounded for every history that does not go through a gain table; a gain-table update drops the limit (witness)."
  },
  {
   "property": "C34",
   "status": "partial",
   "theorems": [
    "Mapleaf.GNC.getPosition_ok",
    "Mapleaf.GNC.deflection_law",
    "Mapleaf.GNC.past_refused",
    "Mapleaf.GNC.deflection_monotone",
    "Mapleaf.GNC.recommand_transparent",
    "Mapleaf.GNC.limitTarget_within",
    "Mapleaf.GNC.deflection_within",
    "Mapleaf.GNC.deflection_limits",
    "Mapleaf.GNC.deflection_converges",
    "Mapleaf.GNC.initial_target_violated",
    "Mapleaf.GNC.initial_time_violated"
   ],
   "note": "Limits hold for every history when 0 is inside them; the first target is 0 whatever the limits, and the initial time is ignored (witnesses)."
  },
  {
   "property": "C35",
   "status": "partial",
   "theorems": [
    "Mapleaf.GNC.pyRound_close",
    "Mapleaf.GNC.step_divides_period",
    "Mapleaf.GNC.loop_every_N",
    "Mapleaf.GNC.loop_not_faster",
    "Mapleaf.GNC.loopDts_sum",
    "Mapleaf.GNC.loop_always",
    "Mapleaf.GNC.loop_no_time_violated"
   ],
   "note": "Control periods at or below the 1e-10 tolerance run at every call (witness)."
  },
  {
   "property": "C36",
   "status": "partial",
   "theorems": [
    "Mapleaf.ENV.Rail.rail_motion",
    "Mapleaf.ENV.Rail.force_spec",
    "Mapleaf.ENV.Rail.force_projection_partial",
    "Mapleaf.ENV.Rail.constrain_spec",
    "Mapleaf.ENV.Rail.constrain_above_foot",
    "Mapleaf.ENV.Rail.line_partial",
    "Mapleaf.ENV.Rail.cleared_force_free",
    "Mapleaf.ENV.rail_history",
    "Mapleaf.ENV.global_force_partial",
    "Mapleaf.ENV.tilted_rail_violated",
    "Mapleaf.ENV.sliding_back_violated",
    "Mapleaf.ENV.off_line_violated"
   ],
   "note": "Exact behaviour and full histories; the projection is right only if force and rail are in the same frame (witness for a tilted rail)."
  },
  {
   "property": "C37",
   "status": "partial",
   "theorems": [
    "Mapleaf.ENV.Atm.instances_irrelevant",
    "Mapleaf.ENV.Atm.baseT_vals",
    "Mapleaf.ENV.Atm.hydrostatic",
    "Mapleaf.ENV.Atm.temperature_continuous",
    "Mapleaf.ENV.Atm.pressure_decreasing",
    "Mapleaf.ENV.Atm.properties_partial",
    "Mapleaf.ENV.Atm.pressure_decreasing_altitude",
    "Mapleaf.ENV.Atm.geopotential_mono",
    "Mapleaf.ENV.Atm.below_base_violated",
    "Mapleaf.ENV.Atm.density_jump_violated",
    "Mapleaf.ENV.tabulated_spec"
   ],
   "note": "Hydrostatic balance in every layer, continuity, monotone pressure and the gas law for geopotential heights from -2000 m up to 86 km. Missing because false in the code: below -2000 m the layer index wraps to the top layer; from 86 km up the density is 0 (both with witnesses)."
  },
  {
   "property": "C38",
   "status": "proved",
   "theorems": [
    "Mapleaf.ENV.atan2_cos",
    "Mapleaf.ENV.atan2_sin",
    "Mapleaf.ENV.atan2_polar",
    "Mapleaf.ENV.atan2_polar_mod",
    "Mapleaf.ENV.flat_gravity",
    "Mapleaf.ENV.Sphere.sphere_geodetic_roundtrip",
    "Mapleaf.ENV.Sphere.sphere_cartesian_roundtrip",
    "Mapleaf.ENV.Sphere.sphere_rotates",
    "Mapleaf.ENV.Sphere.sphere_altitude",
    "Mapleaf.ENV.Sphere.enu_axes",
    "Mapleaf.ENV.Sphere.enu_frame",
    "Mapleaf.ENV.Sphere.ned_axes",
    "Mapleaf.ENV.Sphere.sphere_gravity",
    "Mapleaf.ENV.WGS.j2_gravity",
    "Mapleaf.ENV.WGS.ellipsoid",
    "Mapleaf.ENV.WGS.newtonStep_eq",
    "Mapleaf.ENV.WGS.tangent",
    "Mapleaf.ENV.WGS.slope_diff",
    "Mapleaf.ENV.WGS.step_right",
    "Mapleaf.ENV.WGS.loop_right",
    "Mapleaf.ENV.WGS.height_bound",
    "Mapleaf.ENV.WGS.slope_ge",
    "Mapleaf.ENV.WGS.wgs_roundtrip",
    "Mapleaf.ENV.Sphere.sphere_surface",
    "Mapleaf.ENV.Sphere.sphere_day",
    "Mapleaf.ENV.Sphere.sphere_turns_east",
    "Mapleaf.ENV.Sphere.sphere_pull",
    "Mapleaf.ENV.WGS.equator_and_poles"
   ],
   "note": "Spherical earth: both round trips, frames, gravity. WGS84: gravity is the gradient of the J2 potential; the Newton iteration converges to the geodetic coordinates for all heights from 20 km below the ellipsoid up. Over the real numbers."
  },
  {
   "property": "C39",
   "status": "partial",
   "theorems": [
    "Mapleaf.ENV.Pink.noise_unique",
    "Mapleaf.ENV.Pink.noise_rec",
    "Mapleaf.ENV.Pink.noise_first",
    "Mapleaf.ENV.Pink.sample_good",
    "Mapleaf.ENV.Pink.init_at",
    "Mapleaf.ENV.Pink.getValue_at",
    "Mapleaf.ENV.Pink.queries_at",
    "Mapleaf.ENV.Pink.function_of_time_partial",
    "Mapleaf.ENV.Pink.same_for_all_steps",
    "Mapleaf.ENV.Pink.line_nodes",
    "Mapleaf.ENV.Pink.backwards_violated",
    "Mapleaf.ENV.turb1_spec",
    "Mapleaf.ENV.turb2_spec",
    "Mapleaf.ENV.turb3_vertical_violated",
    "Mapleaf.ENV.coeffList_spec",
    "Mapleaf.ENV.desiredStdDev_spec"
   ],
   "note": "For every seed and query history that does not go past the sampling interval of t the value at t is fixed and is the linear interpolation of the noise sequence. Violated: going back to an earlier sampling interval extrapolates; in 3D the vertical component is a copy of the y component."
  },
  {
   "property": "C40",
   "status": "proved",
   "theorems": [
    "Mapleaf.ENV.SineGust.velocity_profile",
    "Mapleaf.ENV.SineGust.velocity_outside",
    "Mapleaf.ENV.SineGust.velocity_plateau",
    "Mapleaf.ENV.SineGust.profile_bounds",
    "Mapleaf.ENV.SineGust.profile_continuous",
    "Mapleaf.ENV.SineGust.velocity_continuous",
    "Mapleaf.ENV.SineGust.zero_blend"
   ],
   "note": "All altitudes and all gusts with positive blend distance; zero blend distance characterised separately (a jump)."
  },
  {
   "property": "C41",
   "status": "proved",
   "theorems": [
    "Mapleaf.ENV.hellman_ground",
    "Mapleaf.ENV.hellman_power",
    "Mapleaf.ENV.hellman_top",
    "Mapleaf.ENV.hellman_mono",
    "Mapleaf.ENV.hellman_continuous",
    "Mapleaf.ENV.windDirection_spec",
    "Mapleaf.ENV.windDirection_compass",
    "Mapleaf.ENV.windDirection_periodic",
    "Mapleaf.ENV.interpolatedWind_spec",
    "Mapleaf.ENV.axis_angle_violated"
   ],
   "note": "All altitudes, headings, tables. The unused AngleBetweenYAxisandNorth argument has the wrong sign (axis_angle_violated)."
  },
  {
   "property": "C42",
   "status": "partial",
   "theorems": [
    "Mapleaf.Rocket.segment_power",
    "Mapleaf.Rocket.sum_power",
    "Mapleaf.Rocket.tube_power",
    "Mapleaf.Rocket.tube_dissipative",
    "Mapleaf.Rocket.segment_on_axis",
    "Mapleaf.Rocket.roll_damping",
    "Mapleaf.Rocket.pure_moment",
    "Mapleaf.Rocket.damping_component_power",
    "Mapleaf.Rocket.damping_component_point",
    "Mapleaf.Rocket.damping_component_iff",
    "Mapleaf.Rocket.jet_damping_power",
    "Mapleaf.Rocket.FinP.roll_moment",
    "Mapleaf.Rocket.FinP.roll_power_partial",
    "Mapleaf.Rocket.FinP.roll_antitone_partial",
    "Mapleaf.Rocket.FinP.pitch_power_partial",
    "Mapleaf.Rocket.fin_pitch_violated",
    "Mapleaf.Rocket.bodyTube_dissipates",
    "Mapleaf.Rocket.FinP.normalForce_law",
    "Mapleaf.Rocket.FinP.law_mono",
    "Mapleaf.Rocket.FinP.cone_change",
    "Mapleaf.Rocket.FinP.busemann_falls",
    "Mapleaf.Rocket.cubicInterp_finBlend",
    "Mapleaf.Rocket.finBlend_pos",
    "Mapleaf.Rocket.busemann_close",
    "Mapleaf.Rocket.roll_transonic_violated"
   ],
   "note": "Body tubes, fixed coefficients and jet damping for all inputs; fin roll damping and pitch power for all geometries outside 0.8 < Mach < 1.4, and inside it, where the code interpolates, for fins none of whose slices is more than three of its lengths away from the tip. False and shown so: a very slender swept fin drives the roll at Mach 1.2; with the centre of gravity between fin leading edge and fin centre of pressure the fins feed pitching."
  },
  {
   "property": "C43",
   "status": "partial",
   "theorems": [
    "Mapleaf.Rocket.baseDrag_continuous",
    "Mapleaf.Rocket.baseDrag_range",
    "Mapleaf.Rocket.crossFlow_edge",
    "Mapleaf.Rocket.crossFlow_continuous_violated",
    "Mapleaf.Rocket.crossFlow_continuous_partial",
    "Mapleaf.Rocket.crossFlow_range",
    "Mapleaf.Rocket.rough_supersonic",
    "Mapleaf.Rocket.correction_blend",
    "Mapleaf.Rocket.correction_continuous",
    "Mapleaf.Rocket.correction_range",
    "Mapleaf.Rocket.transitional_pos",
    "Mapleaf.Rocket.friction_correction",
    "Mapleaf.Rocket.friction_pos",
    "Mapleaf.Rocket.friction_continuous_violated",
    "Mapleaf.Rocket.laminar_joint",
    "Mapleaf.Rocket.sonic_violated",
    "Mapleaf.Rocket.conePressure_joint",
    "Mapleaf.Rocket.conePressure_slopes",
    "Mapleaf.Rocket.dragToAxial_range",
    "Mapleaf.Rocket.axial_factor_violated",
    "Mapleaf.Rocket.getBeta_spec",
    "Mapleaf.Rocket.lateral_length",
    "Mapleaf.Rocket.normal_spec",
    "Mapleaf.Rocket.aoa_ok",
    "Mapleaf.Rocket.cdcn_spec",
    "Mapleaf.Rocket.lift_drag_spec",
    "Mapleaf.Rocket.lift_across_violated",
    "Mapleaf.Rocket.forward_drag_dissipates",
    "Mapleaf.Rocket.backward_drag_violated"
   ],
   "note": "Base drag and the compressibility correction are continuous, all coefficients positive and bounded. False and shown so: small jumps in the cross-flow, axial-factor and friction correlations; tail-first drag points the wrong way."
  },
  {
   "property": "C44",
   "status": "partial",
   "theorems": [
    "Mapleaf.Rocket.rocketLength_spec",
    "Mapleaf.Rocket.finenessRatio_spec",
    "Mapleaf.Rocket.Nose.ogive_shape",
    "Mapleaf.Rocket.Nose.ogive_volume",
    "Mapleaf.Rocket.Nose.ogive_wetted",
    "Mapleaf.Rocket.Nose.ogive_cp",
    "Mapleaf.Rocket.Nose.ogive_tip_violated",
    "Mapleaf.Rocket.Nose.ogive_wetted_violated",
    "Mapleaf.Rocket.Nose.cone_areas",
    "Mapleaf.Rocket.Nose.cone_volume_violated",
    "Mapleaf.Rocket.Nose.halfSeries_violated",
    "Mapleaf.Rocket.nose_position_violated",
    "Mapleaf.Rocket.Trans.geometry_wetted",
    "Mapleaf.Rocket.Trans.narrowing",
    "Mapleaf.Rocket.Trans.widening_violated",
    "Mapleaf.Rocket.Trans.split",
    "Mapleaf.Rocket.Trans.drag_defined",
    "Mapleaf.Rocket.Trans.boatTail_base",
    "Mapleaf.Rocket.transPressure_ok_iff",
    "Mapleaf.Rocket.trans_flat",
    "Mapleaf.Rocket.tube_geometry",
    "Mapleaf.Rocket.cpz_spec",
    "Mapleaf.Rocket.barrowmanCP_inside",
    "Mapleaf.Rocket.barrowman_split",
    "Mapleaf.Rocket.barrowmanCN_split",
    "Mapleaf.Rocket.stageRadius_spec",
    "Mapleaf.Rocket.stageLength_spec",
    "Mapleaf.Rocket.stageMaxDiameter_spec"
   ],
   "note": "Ogives (at least as long as the base radius), body tubes and narrowing transitions agree with the solid of revolution. False and shown so: cone volume is four times too large and puts the centre of pressure ahead of the tip; widening transitions get a negative volume; ogive wetted area lacks the slope factor; half series cannot be built."
  },
  {
   "property": "C45",
   "status": "partial",
   "theorems": [
    "Mapleaf.Rocket.directions_spec",
    "Mapleaf.Rocket.directions_cancel",
    "Mapleaf.Rocket.directions_isotropic",
    "Mapleaf.Rocket.fin_count_violated",
    "Mapleaf.Rocket.slices_spec",
    "Mapleaf.Rocket.mac_spec",
    "Mapleaf.Rocket.cp_unique",
    "Mapleaf.Rocket.cp_cases",
    "Mapleaf.Rocket.cp_smooth",
    "Mapleaf.Rocket.supersonic_slice",
    "Mapleaf.Rocket.busemann_pos",
    "Mapleaf.Rocket.machCone_range",
    "Mapleaf.Rocket.cnAlpha_pos",
    "Mapleaf.Rocket.cnAlpha_root",
    "Mapleaf.Rocket.busemann_value",
    "Mapleaf.Rocket.finSet_sum",
    "Mapleaf.Rocket.interference_range",
    "Mapleaf.Rocket.trailing_edge_sweep",
    "Mapleaf.Rocket.mid_chord_sweep",
    "Mapleaf.Rocket.mid_chord_violated",
    "Mapleaf.Rocket.aspect_ratio_violated",
    "Mapleaf.Rocket.stall_limit_violated",
    "Mapleaf.Rocket.sliceLoop_spec",
    "Mapleaf.Rocket.FinP.deflected_normal",
    "Mapleaf.Rocket.FinP.normalForce_law",
    "Mapleaf.Rocket.FinP.law_mono",
    "Mapleaf.Rocket.FinP.force_defined",
    "Mapleaf.Rocket.FinP.turned_force",
    "Mapleaf.Rocket.finSet_axial"
   ],
   "note": "All fin counts for the geometry and the symmetric-flow cancellation. False and shown so: 5 to 8 fins raise AttributeError; the stall limit compares degrees with radians and never acts."
  },
  {
   "property": "C46",
   "status": "partial",
   "theorems": [
    "Mapleaf.Run.detect_iff",
    "Mapleaf.Run.chooseEnd_spec",
    "Mapleaf.Run.fixed_end",
    "Mapleaf.Run.first_stop",
    "Mapleaf.Run.overshoot_le",
    "Mapleaf.Run.all_stages_end",
    "Mapleaf.Run.overrideStep_le",
    "Mapleaf.Run.late_start",
    "Mapleaf.Run.end_time_violated",
    "Mapleaf.Run.zero_step_violated",
    "Mapleaf.Run.apogee_on_pad_violated"
   ],
   "note": "Exact end time for every fixed positive step; for any step chooser the overshoot is at most the last step. False and shown so: adaptive steps with an event override pass the end time, a zero step never ends, the apogee condition fires on the launch pad."
  },
  {
   "property": "C47",
   "status": "partial",
   "theorems": [
    "Mapleaf.Run.never_shared",
    "Mapleaf.Run.never_gives_up",
    "Mapleaf.Run.gets_folder",
    "Mapleaf.Run.results_folders",
    "Mapleaf.Run.gave_up_violated"
   ],
   "note": "Never shared: any number of processes and any interleaving. Up to 50 processes none gives up; with 51 one can give up although it created its folder (witness)."
  },
  {
   "property": "C48",
   "status": "proved",
   "theorems": [
    "Mapleaf.Run.each_run_once",
    "Mapleaf.Run.at_most_nProc",
    "Mapleaf.Run.uses_nProc",
    "Mapleaf.Run.peak_spec",
    "Mapleaf.Run.outputs_spec",
    "Mapleaf.Run.parallel_matches",
    "Mapleaf.Run.parallel_matches_lists",
    "Mapleaf.Run.parallelDefs_spec",
    "Mapleaf.Run.sequentialDefs_spec"
   ],
   "note": "For every scheduler. Equality of results is for equal sampled definitions; the code samples in a different order in the two modes."
  },
  {
   "property": "C49",
   "status": "partial",
   "theorems": [
    "Mapleaf.Run.passes_numbers",
    "Mapleaf.Run.passes_missing",
    "Mapleaf.Run.passes_nan_expected",
    "Mapleaf.Run.passes_nan_observed",
    "Mapleaf.Run.passes_inf_observed",
    "Mapleaf.Run.passes_inf_expected",
    "Mapleaf.Run.checkResult_counts",
    "Mapleaf.Run.exitCode_zero",
    "Mapleaf.Run.runBatch_zero",
    "Mapleaf.Run.crash_fails",
    "Mapleaf.Run.crashed_counts",
    "Mapleaf.Run.casesToRun_mem",
    "Mapleaf.Run.checkCase_counts",
    "Mapleaf.Run.checkCase_reports",
    "Mapleaf.Run.singleResult_spec",
    "Mapleaf.Run.errorPercent_numbers",
    "Mapleaf.Run.sweep_compared",
    "Mapleaf.Run.sweep_too_many",
    "Mapleaf.Run.single_expected_count",
    "Mapleaf.Run.nan_violated",
    "Mapleaf.Run.bad_expected_violated",
    "Mapleaf.Run.record_missing_violated",
    "Mapleaf.Run.last_point_violated",
    "Mapleaf.Run.one_point_violated",
    "Mapleaf.Run.record_then_check_violated"
   ],
   "note": "Verdict and counts exact. False and shown so: NaN passes against expected 0; malformed expected values are not checked; refined sweeps compare against the wrong point in some cases."
  },
  {
   "property": "C50",
   "status": "proved",
   "theorems": [
    "Mapleaf.Run.addPoint_ok",
    "Mapleaf.Run.addPoints_spec",
    "Mapleaf.Run.refined_length",
    "Mapleaf.Run.refined_get"
   ],
   "note": ""
  },
  {
   "property": "C51",
   "status": "partial",
   "theorems": [
    "Mapleaf.Run.apogee_spec",
    "Mapleaf.Run.maxSpeed_spec",
    "Mapleaf.Run.maxHorizontalVel_spec",
    "Mapleaf.Run.speed_components",
    "Mapleaf.Run.landing_spec",
    "Mapleaf.Run.getLandingLocation_spec",
    "Mapleaf.Run.landing_between",
    "Mapleaf.Run.flightTime_spec",
    "Mapleaf.Run.apogee_violated",
    "Mapleaf.Run.landing_stopped_violated",
    "Mapleaf.Run.landing_raises_violated"
   ],
   "note": "Extrema exact for non-empty flights (apogee if some state is above -1e7 m). False and shown so: flights stopped high up are extrapolated instead of reported at their last position; level flight and one-state flights raise."
  },
  {
   "property": "C52",
   "status": "partial",
   "theorems": [
    "Mapleaf.Run.Hil.ptByte_fields",
    "Mapleaf.Run.Hil.writePacket_spec",
    "Mapleaf.Run.Hil.writePacket_bad_data",
    "Mapleaf.Run.Hil.component_decodes",
    "Mapleaf.Run.Hil.component_range",
    "Mapleaf.Run.Hil.vecPacket_wellFormed",
    "Mapleaf.Run.Hil.quatPacket_wellFormed",
    "Mapleaf.Run.Hil.packet_rate",
    "Mapleaf.Run.Hil.packet_due",
    "Mapleaf.Run.Hil.vecPacket_content",
    "Mapleaf.Run.Hil.mirror_violated"
   ],
   "note": "Framing, checksum and quantisation for all inputs; the single-precision encoding of struct.pack is an arbitrary function. False and shown so: orientation is not converted and the vector conversion is a mirror image."
  },
  {
   "property": "C53",
   "status": "proved",
   "theorems": [
    "Mapleaf.ENV.Sonde.isStart_iff",
    "Mapleaf.ENV.Sonde.startLines_spec",
    "Mapleaf.ENV.Sonde.collect_takeWhile",
    "Mapleaf.ENV.Sonde.extract_spec",
    "Mapleaf.ENV.Sonde.parse_spec",
    "Mapleaf.ENV.Sonde.profile_usable",
    "Mapleaf.ENV.Sonde.empty_sounding_violated",
    "Mapleaf.ENV.Sonde.quality_marker_violated",
    "Mapleaf.ENV.Sonde.filter_headers",
    "Mapleaf.ENV.Sonde.filter_data",
    "Mapleaf.ENV.Sonde.filter_blank",
    "Mapleaf.ENV.Sonde.monthFilter_spec"
   ],
   "note": "All file contents and selections; numpy's argsort is only assumed to return a sorting permutation. Findings: a sounding without data raises; lines with the -8888 marker are kept by the preparation script."
  },
  {
   "property": "C54",
   "status": "proved",
   "theorems": [
    "Mapleaf.Run.numberedName_injective",
    "Mapleaf.Run.findNext_spec",
    "Mapleaf.Run.findNext_fresh"
   ],
   "note": ""
  },
  {
   "property": "C55",
   "status": "partial",
   "theorems": [
    "Mapleaf.Run.Conv.PowerLaw.order_exact",
    "Mapleaf.Run.Conv.PowerLaw.richardson_exact",
    "Mapleaf.Run.Conv.PowerLaw.errorEstimate_exact",
    "Mapleaf.Run.Conv.PowerLaw.uncertainty_covers",
    "Mapleaf.Run.Conv.asymptotic_spec",
    "Mapleaf.Run.Conv.order_limited",
    "Mapleaf.Run.Conv.order_raises",
    "Mapleaf.Run.Conv.stepHistory_spec",
    "Mapleaf.Run.Conv.fourth_order_violated",
    "Mapleaf.Run.Conv.converged_violated"
   ],
   "note": "Exact inside the limiter range. Outside it (fourth-order schemes with the default limits) the order and the extrapolation are wrong; exactly converged values raise (witnesses)."
  },
  {
   "property": "C56",
   "status": "partial",
   "theorems": [
    "Mapleaf.SimDef.stray_bracket_violated",
    "Mapleaf.SimDef.every_line_counts_partial",
    "Mapleaf.SimDef.unclosed_rejected"
   ],
   "note": "A stray closing bracket at the root ends parsing silently (witness)."
  },
  {
   "property": "C57",
   "status": "partial",
   "theorems": [
    "Mapleaf.SimDef.getValue_unaccessed",
    "Mapleaf.SimDef.unused_report_partial",
    "Mapleaf.SimDef.unused_report_violated"
   ],
   "note": "Exact for histories of reads; the report raises KeyError after an unread key was removed (witness)."
  },
  {
   "property": "C58",
   "status": "proved",
   "theorems": [
    "Mapleaf.Motion.ofRotationVector_rotates",
    "Mapleaf.Motion.update_spec",
    "Mapleaf.Motion.updates_unit"
   ],
   "note": ""
  },
  {
   "property": "C59",
   "status": "proved",
   "theorems": [
    "Mapleaf.Motion.newton_euler",
    "Mapleaf.Motion.newton_euler_degenerate",
    "Mapleaf.Motion.newton3",
    "Mapleaf.Rocket.Craft.rhs_newton",
    "Mapleaf.Rocket.Craft.rhs_degenerate",
    "Mapleaf.Rocket.quotient_near",
    "Mapleaf.Rocket.Craft.rhs_velocity"
   ],
   "note": "newton_euler is about one evaluation for given force and inertia; rhs_newton and rhs_velocity say the same of a whole rocket with the forces and masses of all its parts."
  },
  {
   "property": "C60",
   "status": "partial",
   "theorems": [
    "Mapleaf.Motion.RK.fsal_partial",
    "Mapleaf.Motion.RK.cache_used",
    "Mapleaf.Motion.RK.fsal_stale_violated",
    "Mapleaf.Rocket.Keep.kept_slope",
    "Mapleaf.Rocket.Keep.kept_slope3"
   ],
   "note": "Exact for unchanged state and right-hand side up to the 1e-16 coefficient; stale otherwise (witness)."
  },
  {
   "property": "C61",
   "status": "partial",
   "theorems": [
    "Mapleaf.Run.Opt.parseIndep_spec",
    "Mapleaf.Run.Opt.updateIndep_spec",
    "Mapleaf.Run.Opt.substitute_spec",
    "Mapleaf.Run.Opt.updateDep_spec",
    "Mapleaf.Run.Opt.trialDef_spec",
    "Mapleaf.Run.Opt.trialDef_value",
    "Mapleaf.Run.Opt.combine_spec",
    "Mapleaf.Run.Opt.costsSingle_spec",
    "Mapleaf.Run.Opt.parallel_partial",
    "Mapleaf.Run.Opt.inner_cost_violated",
    "Mapleaf.Run.Opt.parallel_inner_violated"
   ],
   "note": "Expression evaluation and the simulation are arbitrary functions. False and shown so: a nested optimisation is ignored in parallel mode and uses the outer cost function."
  },
  {
   "property": "C62",
   "status": "partial",
   "theorems": [
    "Mapleaf.Run.Opt.startParticle_spec",
    "Mapleaf.Run.Opt.initialPositions_spec",
    "Mapleaf.Run.Opt.initialPositions_bounded",
    "Mapleaf.Run.Opt.positions_restored",
    "Mapleaf.Run.Opt.best_restored",
    "Mapleaf.Run.Opt.best_both",
    "Mapleaf.Run.Opt.continuation_spec",
    "Mapleaf.Run.Opt.restart_partial",
    "Mapleaf.Run.Opt.scipy_restart",
    "Mapleaf.Run.Opt.scipy_midpoint",
    "Mapleaf.Run.Opt.restart_violated"
   ],
   "note": "Assumes that the text of a number reads back as that number. False and shown so: a swarm with two or more variables cannot be continued (ValueError)."
  },
  {
   "property": "C63",
   "status": "partial",
   "theorems": [
    "Mapleaf.Run.Opt.success_cost",
    "Mapleaf.Run.Opt.crash_cost",
    "Mapleaf.Run.Opt.crash_worst_partial",
    "Mapleaf.Run.Opt.crash_violated"
   ],
   "note": "False and shown so for negative costs within the first five trials."
  },
  {
   "property": "C64",
   "status": "partial",
   "theorems": [
    "Mapleaf.Rocket.fixedMass_spec",
    "Mapleaf.Rocket.fixedMass_moves",
    "Mapleaf.Rocket.fixedMass_reports",
    "Mapleaf.Rocket.fixedForce_spec",
    "Mapleaf.Rocket.fixedForce_stage_partial",
    "Mapleaf.Rocket.fixedForce_stage_violated",
    "Mapleaf.Rocket.aeroForce_spec",
    "Mapleaf.Rocket.aeroForce_stage_partial",
    "Mapleaf.Rocket.aeroForce_stage_violated",
    "Mapleaf.Rocket.moi_malformed_violated",
    "Mapleaf.Rocket.stageOverrides_spec",
    "Mapleaf.Rocket.zeroInertia_neutral",
    "Mapleaf.Rocket.zeroForce_neutral",
    "Mapleaf.Rocket.orderByZ_spec",
    "Mapleaf.Rocket.zOf_spec",
    "Mapleaf.Rocket.classOf_spec",
    "Mapleaf.Rocket.isBody_iff",
    "Mapleaf.Rocket.buildOrder_spec",
    "Mapleaf.Rocket.buildOrder_fails",
    "Mapleaf.Rocket.buildOrder_succeeds"
   ],
   "note": "Proved for fixed masses, stage overrides and component order. False and shown so: constant forces and aerodynamic forces ignore the stage's position, and a malformed moment of inertia is silently replaced."
  },
  {
   "property": "C65",
   "status": "partial",
   "theorems": [
    "Mapleaf.Rocket.aeroKeyOf_spec",
    "Mapleaf.Rocket.leadingKeys_spec",
    "Mapleaf.Rocket.coeffIndices_spec",
    "Mapleaf.Rocket.load2D_ok",
    "Mapleaf.Rocket.fillCoeffs_spec",
    "Mapleaf.Rocket.linInterp_map",
    "Mapleaf.Rocket.aeroTable_spec",
    "Mapleaf.Rocket.aeroTable_exact",
    "Mapleaf.Rocket.aeroCoefficients_nd",
    "Mapleaf.Rocket.aeroTable_reports",
    "Mapleaf.Rocket.aeroTable_short_violated",
    "Mapleaf.Rocket.aeroTable_long_violated",
    "Mapleaf.Rocket.aeroTable_single_violated",
    "Mapleaf.Rocket.loadInertia_ok",
    "Mapleaf.Rocket.tableInertia_spec",
    "Mapleaf.Rocket.columnAt_spec"
   ],
   "note": "One key column; the n-dimensional interpolation of scipy is not modelled. False and shown so: rows that do not match the header are accepted (missing columns become zero, surplus ones raise in flight)."
  },
  {
   "property": "C66",
   "status": "proved",
   "theorems": [
    "Mapleaf.ENV.earthModelFactory_spec",
    "Mapleaf.ENV.turning_enu",
    "Mapleaf.ENV.air_spec",
    "Mapleaf.ENV.still_air",
    "Mapleaf.ENV.calm_ok",
    "Mapleaf.ENV.calm_air",
    "Mapleaf.ENV.wind_local",
    "Mapleaf.ENV.wind_flat",
    "Mapleaf.ENV.under_chute",
    "Mapleaf.ENV.gravityForce_spec",
    "Mapleaf.ENV.pad_airspeed"
   ],
   "note": "Which air density, wind and gravity the rocket meets for every Earth model, wind model and chute state; the pad rocket on a turning Earth has the wind as its airspeed."
  },
  {
   "property": "C67",
   "status": "partial",
   "theorems": [
    "Mapleaf.ENV.Sphere.toGlobal_partial",
    "Mapleaf.ENV.Sphere.toGlobal_altitude",
    "Mapleaf.ENV.Sphere.tower_offset_violated",
    "Mapleaf.ENV.toGlobal_turning",
    "Mapleaf.ENV.toGlobal3_spec",
    "Mapleaf.ENV.toGlobal_congr",
    "Mapleaf.ENV.initialOrientation_spec",
    "Mapleaf.ENV.vertical_close",
    "Mapleaf.ENV.straight_down_violated",
    "Mapleaf.ENV.moveToCG_spec",
    "Mapleaf.ENV.rail_aligned",
    "Mapleaf.ENV.rail_jump_violated",
    "Mapleaf.ENV.toENU_initial_partial",
    "Mapleaf.ENV.toENU_flat",
    "Mapleaf.ENV.initial_rail_rate",
    "Mapleaf.ENV.toENU_rate_violated"
   ],
   "note": "Proved: position, velocity, orientation, angular velocity and rail of the initial state. False and shown so: the x/y offset of the launch tower is ignored, a rocket pointing straight down gets no orientation, the first rail step moves the rocket up by its CG distance, and angular velocity is not the same after conversion to the launch frame on a turning Earth."
  },
  {
   "property": "C68",
   "status": "partial",
   "theorems": [
    "Mapleaf.ENV.Rose.chance_unique",
    "Mapleaf.ENV.Rose.ppf_bins",
    "Mapleaf.ENV.Rose.ppf_chance",
    "Mapleaf.ENV.Rose.speedBins_sorted",
    "Mapleaf.ENV.Rose.speed_chance",
    "Mapleaf.ENV.Rose.speed_share_violated",
    "Mapleaf.ENV.Rose.extreme_wind_violated",
    "Mapleaf.ENV.Rose.shareAt_spec",
    "Mapleaf.ENV.Rose.heading_chance",
    "Mapleaf.ENV.Rose.heading_shift_violated",
    "Mapleaf.ENV.Rose.sampleWind_spec",
    "Mapleaf.ENV.Rose.average_dirs_partial",
    "Mapleaf.ENV.Rose.average_weights_violated",
    "Mapleaf.ENV.Rose.average_two",
    "Mapleaf.ENV.Rose.directions_spec"
   ],
   "note": "Proved: the exact distribution of sampled speeds and headings and the average of roses. False and shown so: speed classes are weighted by their width, strong winds are rarer than documented, headings are shifted by half a sector, and weights that do not sum to one scale the directions. What scipy.stats.rv_histogram does is assumed from its documentation."
  },
  {
   "property": "C69",
   "status": "partial",
   "theorems": [
    "Mapleaf.Rocket.split_ok",
    "Mapleaf.Rocket.split_fails",
    "Mapleaf.Rocket.flying_total",
    "Mapleaf.Rocket.stage_mass",
    "Mapleaf.Rocket.split_mass",
    "Mapleaf.Rocket.split_conserves_partial",
    "Mapleaf.Rocket.split_place_violated",
    "Mapleaf.Rocket.split_velocity_violated",
    "Mapleaf.Rocket.ignition_irrelevant",
    "Mapleaf.Rocket.twoStages_separation",
    "Mapleaf.Rocket.split_jump_violated",
    "Mapleaf.Rocket.burning_stage_violated",
    "Mapleaf.Rocket.refuel_violated"
   ],
   "note": "Proved: what separation does, and conservation of mass, momentum and summed first moment when the motors' masses do not change with the ignition time. False and shown so: both bodies continue from the combined CG (the upper stage jumps), velocities of points of a turning rocket change, the propellant left in a burning dropped stage vanishes, a second separation refuels the top stage."
  },
  {
   "property": "C70",
   "status": "partial",
   "theorems": [
    "Mapleaf.Rocket.lastBody_iff",
    "Mapleaf.Rocket.hasTail_iff",
    "Mapleaf.Rocket.bottom_spec",
    "Mapleaf.Rocket.logTail_some",
    "Mapleaf.Rocket.ensureTail_spec",
    "Mapleaf.Rocket.ensureTail_empty",
    "Mapleaf.Rocket.ensureTail_ends",
    "Mapleaf.Rocket.baseCd_sum",
    "Mapleaf.Rocket.tailCd_flat",
    "Mapleaf.Rocket.base_drag_partial",
    "Mapleaf.Rocket.base_area_violated",
    "Mapleaf.Rocket.second_tail_violated",
    "Mapleaf.Rocket.drop_ok",
    "Mapleaf.Rocket.narrow_stage_violated",
    "Mapleaf.Rocket.stacked_tail_violated",
    "Mapleaf.Rocket.no_tube_violated"
   ],
   "note": "Proved: what is added, where and when, and the resulting drag coefficient. False and shown so: the area is that of the widest tube of the whole rocket, boat tails of upper stages count while covered, a second separation-time boat tail raises ValueError when forces are logged, rockets without body tubes raise ZeroDivisionError after separation."
  },
  {
   "property": "C71",
   "status": "partial",
   "theorems": [
    "Mapleaf.Rocket.stageDicts_spec",
    "Mapleaf.Rocket.tubes_fold",
    "Mapleaf.Rocket.maxTubeDiameter_spec",
    "Mapleaf.Rocket.createStages_pad",
    "Mapleaf.Rocket.createStages_dropped",
    "Mapleaf.Rocket.createStages_unnumbered",
    "Mapleaf.Rocket.sorted_rank",
    "Mapleaf.Rocket.same_number_violated",
    "Mapleaf.Rocket.stagingTriggers_spec",
    "Mapleaf.Rocket.keepStage_spec",
    "Mapleaf.Rocket.forget_kept",
    "Mapleaf.Rocket.forget_own_violated"
   ],
   "note": "Proved: which stages are built, on the pad and when dropped, the reference diameter and the staging events. False and shown so: equal stage numbers are noticed only at the first separation; a stage named like an attribute of the rocket takes that attribute with it."
  },
  {
   "property": "C72",
   "status": "partial",
   "theorems": [
    "Mapleaf.ENV.namesAndWeights_iff",
    "Mapleaf.ENV.readRoses_iff",
    "Mapleaf.ENV.groundWind_iff",
    "Mapleaf.ENV.choose_spec",
    "Mapleaf.ENV.sondeProfile_iff",
    "Mapleaf.ENV.wind_iff",
    "Mapleaf.ENV.wind_unknown",
    "Mapleaf.ENV.hellman_ground_violated",
    "Mapleaf.ENV.yearly_roses_violated",
    "Mapleaf.ENV.turbulence_iff",
    "Mapleaf.ENV.turbulence_unknown",
    "Mapleaf.ENV.fractional_intensity_violated",
    "Mapleaf.ENV.airTable_iff",
    "Mapleaf.ENV.air_iff",
    "Mapleaf.ENV.earth_iff",
    "Mapleaf.ENV.rail_iff",
    "Mapleaf.ENV.environment_iff",
    "Mapleaf.ENV.default_environment",
    "Mapleaf.ENV.sonde_repeatable",
    "Mapleaf.ENV.ground_wind_unseeded_violated",
    "Mapleaf.ENV.sounding_of_month"
   ],
   "note": "Proved: exact characterisation of every environment a definition can give, and of the random numbers used. False and shown so: ground winds from wind roses cannot be seeded, the default month Yearly has no wind roses, intensities must be whole numbers, unknown ground wind models are not refused as such."
  },
  {
   "property": "C73",
   "status": "partial",
   "theorems": [
    "Mapleaf.GNC.stabilizer_spec",
    "Mapleaf.GNC.error_spec",
    "Mapleaf.GNC.error_zero_iff",
    "Mapleaf.GNC.turned_once_violated",
    "Mapleaf.GNC.turned_on_target_violated",
    "Mapleaf.GNC.moments_constant",
    "Mapleaf.GNC.moments_scheduled",
    "Mapleaf.GNC.moments_on_target",
    "Mapleaf.GNC.command_iff",
    "Mapleaf.GNC.setTarget_spec",
    "Mapleaf.GNC.run_waits",
    "Mapleaf.GNC.run_iff",
    "Mapleaf.GNC.run_ideal",
    "Mapleaf.GNC.run_ready",
    "Mapleaf.GNC.first_loop_violated",
    "Mapleaf.GNC.runControl_iff",
    "Mapleaf.GNC.launch_frame_violated",
    "Mapleaf.GNC.find_partial",
    "Mapleaf.GNC.upper_stage_violated",
    "Mapleaf.GNC.moment_iff",
    "Mapleaf.GNC.actuated_iff",
    "Mapleaf.GNC.stepping_iff",
    "Mapleaf.GNC.control_iff",
    "Mapleaf.GNC.controlWanted_iff",
    "Mapleaf.GNC.drop_partial",
    "Mapleaf.GNC.restore_violated"
   ],
   "note": "Proved: the error, moments, commands and log of every loop, and the set-up, exactly. False and shown so: after a full turn of the rocket the error goes the long way round; over a turning earth the launch frame is confused with the global one; a stage with an automatic boat tail breaks the search for the controlled component; dropping the controlled stage raises if the time stepping was changed; with update rate 0 the first loop divides by zero."
  },
  {
   "property": "C74",
   "status": "partial",
   "theorems": [
    "Mapleaf.LogM.euler_iff_partial",
    "Mapleaf.LogM.euler_gimbal_violated",
    "Mapleaf.LogM.angles_iff_partial",
    "Mapleaf.LogM.angles_gimbal_violated",
    "Mapleaf.LogM.angles_upright",
    "Mapleaf.LogM.logState_row",
    "Mapleaf.LogM.newStateLog_spec",
    "Mapleaf.LogM.flight_log"
   ],
   "note": "Proved: the log line by line for all flights; the angles are the unique ones in range unless the rocket's x axis is vertical. False and shown so: with a vertical x axis (a rocket lying flat) the angles no longer describe the attitude; for an upright rocket the angles are those of its x axis, so that it has pitch 0 and roll pi."
  },
  {
   "property": "C75",
   "status": "partial",
   "theorems": [
    "Mapleaf.LogM.fromEnd_spec",
    "Mapleaf.LogM.expand_ok_partial",
    "Mapleaf.LogM.expand_row_partial",
    "Mapleaf.LogM.drag_frame_violated",
    "Mapleaf.LogM.expand_leftovers_violated",
    "Mapleaf.LogM.expand_refused",
    "Mapleaf.LogM.expand_without_speed",
    "Mapleaf.LogM.expandedPath_partial",
    "Mapleaf.LogM.expandedPath_violated"
   ],
   "note": "Proved for logs whose force and moment columns are called as the program calls them: columns and values exactly. False and shown so: Cd and Cl combine the force in the rocket's frame with the velocity in the global frame; the intermediate columns stay; an expanded file is not recognised; a path with .csv in a directory name changes the directory."
  },
  {
   "property": "C76",
   "status": "partial",
   "theorems": [
    "Mapleaf.Motion.Aero.airVel_iff",
    "Mapleaf.Motion.Aero.mach_iff",
    "Mapleaf.Motion.Aero.mach_error",
    "Mapleaf.Motion.Aero.reynolds_iff",
    "Mapleaf.Motion.Aero.dynP_iff",
    "Mapleaf.Motion.Aero.totalAOA_iff",
    "Mapleaf.Motion.Aero.aoa_iff",
    "Mapleaf.Motion.Aero.aoss_iff",
    "Mapleaf.Motion.Aero.normal_iff",
    "Mapleaf.Motion.Aero.roll_iff",
    "Mapleaf.Motion.Aero.roll_reference_violated",
    "Mapleaf.Motion.Aero.totalAOA_degrees_violated"
   ],
   "note": "Proved: every quantity exactly (iff), as long as no angle of attack or sideslip has been asked before (C26). False and shown so: the total angle of attack is in radians, not in degrees as documented; the roll angle is measured from another axis than documented. Angles whose cosine is within 1e-8 of 1 become 0."
  },
  {
   "property": "C77",
   "status": "partial",
   "theorems": [
    "Mapleaf.LogM.pick_spec",
    "Mapleaf.LogM.pick_invalid",
    "Mapleaf.LogM.cache_transparent_partial",
    "Mapleaf.LogM.cache_stale_violated",
    "Mapleaf.LogM.cache_refresh",
    "Mapleaf.LogM.withTime_twice",
    "Mapleaf.LogM.plot_log_partial",
    "Mapleaf.LogM.plot_all_partial",
    "Mapleaf.LogM.plot_once",
    "Mapleaf.LogM.plotSpecs_spec",
    "Mapleaf.LogM.time_violated",
    "Mapleaf.LogM.twice_violated",
    "Mapleaf.LogM.force_rows_one",
    "Mapleaf.LogM.force_rows_violated"
   ],
   "note": "Proved: the lines of a plot exactly, when no part of the definition hits the column of times and the files do not change. False and shown so: a log written again under the same name is not read again; a definition that hits the times breaks the following logs; a column hit by two parts is drawn twice; the last row before the rows of a dropped stage is lost."
  },
  {
   "property": "C78",
   "status": "partial",
   "theorems": [
    "Mapleaf.Path.ofStr_str",
    "Mapleaf.Path.resolve_install",
    "Mapleaf.Path.resolve_directory",
    "Mapleaf.Path.resolve_beside",
    "Mapleaf.Path.resolve_absolute",
    "Mapleaf.Path.value_spec",
    "Mapleaf.Path.value_absolute",
    "Mapleaf.Path.value_again",
    "Mapleaf.Path.value_other",
    "Mapleaf.Path.replacePaths_spec",
    "Mapleaf.Path.find_partial",
    "Mapleaf.Path.find_sound",
    "Mapleaf.Path.shadow_violated",
    "Mapleaf.Path.directory_violated"
   ],
   "note": "Proved: the value of every key after reading, and the definition file found when only files have the names looked for. False and shown so: a name without ending prefers the example to the file of the working directory; a directory of that name in the installation hides the batch examples."
  },
  {
   "property": "C79",
   "status": "partial",
   "theorems": [
    "Mapleaf.MainM.optimization_iff",
    "Mapleaf.MainM.monteCarlo_iff",
    "Mapleaf.MainM.batch_iff",
    "Mapleaf.MainM.job_optimization",
    "Mapleaf.MainM.job_monteCarlo",
    "Mapleaf.MainM.job_parallel",
    "Mapleaf.MainM.job_plain",
    "Mapleaf.MainM.job_error_iff",
    "Mapleaf.MainM.main_plot",
    "Mapleaf.MainM.main_error_iff",
    "Mapleaf.MainM.status_violated",
    "Mapleaf.MainM.missing_violated",
    "Mapleaf.MainM.converge_violated",
    "Mapleaf.MainM.empty_violated",
    "Mapleaf.MainM.runs_violated",
    "Mapleaf.MainM.runs_partial",
    "Mapleaf.MainM.method_spec",
    "Mapleaf.MainM.quiet_spec"
   ],
   "note": "Proved: the job for all definitions and options. False and shown so: the exit status never tells of failed cases or a missing file; --converge is dropped for studies of other kinds; an empty definition is a batch; a number of runs that is not whole is accepted first and fails later."
  },
  {
   "property": "C80",
   "status": "partial",
   "theorems": [
    "Mapleaf.Motion.Stepper.ops3_spec",
    "Mapleaf.Motion.Stepper.abs3_spec",
    "Mapleaf.Motion.Stepper.rhs3_spec",
    "Mapleaf.Motion.Stepper.timeStep_spec",
    "Mapleaf.Motion.Stepper.timeSteps_spec",
    "Mapleaf.Motion.Stepper.ballistic_step",
    "Mapleaf.Motion.Stepper.ballistic_flight",
    "Mapleaf.Motion.Stepper.ballistic_exact",
    "Mapleaf.Motion.Stepper.ballistic_euler",
    "Mapleaf.Motion.Stepper.factory_spec",
    "Mapleaf.Motion.Stepper.constant_violated",
    "Mapleaf.Motion.Stepper.collect_spec",
    "Mapleaf.Motion.Stepper.stateless_spec",
    "Mapleaf.Motion.Stepper.stateful_partial",
    "Mapleaf.Motion.Stepper.mismatch_refused",
    "Mapleaf.Motion.Stepper.swallowed_violated",
    "Mapleaf.Motion.Stepper.sameName_violated",
    "Mapleaf.Motion.Stepper.cancel_violated",
    "Mapleaf.Motion.Stepper.nameless_violated",
    "Mapleaf.Motion.Stepper.euler_spec",
    "Mapleaf.Motion.Stepper.euler_read",
    "Mapleaf.Motion.Stepper.precompute_spec",
    "Mapleaf.Motion.Stepper.switch_spec",
    "Mapleaf.Motion.Stepper.dropped_violated",
    "Mapleaf.Motion.Stepper.logFiles_spec",
    "Mapleaf.Motion.Stepper.overwritten_violated"
   ],
   "note": "Proved: stepping, exact flights under constant force, variables of components when consistent and named differently, the switch to 3-DoF, the files written. False and shown so: equal names, failing components passed over, cancelling mistakes, variables dropped with the parachute, the controller constant."
  },
  {
   "property": "C81",
   "status": "partial",
   "theorems": [
    "Mapleaf.CaseM.overrides_spec",
    "Mapleaf.CaseM.overrides_error",
    "Mapleaf.CaseM.always_logs_violated",
    "Mapleaf.CaseM.prepareCase_ok_iff",
    "Mapleaf.CaseM.missing_file_violated",
    "Mapleaf.CaseM.sweep_dicts_iff",
    "Mapleaf.CaseM.results_name_violated",
    "Mapleaf.CaseM.linspace_spec",
    "Mapleaf.CaseM.parseSweepValues_ok_iff",
    "Mapleaf.CaseM.readSweeps_ok_iff",
    "Mapleaf.CaseM.smoothLine_spec",
    "Mapleaf.CaseM.smooth_default_violated",
    "Mapleaf.CaseM.sweepColumn_ok_iff",
    "Mapleaf.CaseM.missing_column_violated",
    "Mapleaf.CaseM.expectedKeys_spec",
    "Mapleaf.CaseM.default_recording_violated",
    "Mapleaf.CaseM.avgError_ok_iff",
    "Mapleaf.CaseM.validate_spec",
    "Mapleaf.CaseM.avgError_bound",
    "Mapleaf.CaseM.signed_violated",
    "Mapleaf.CaseM.zero_value_violated",
    "Mapleaf.CaseM.closest_violated",
    "Mapleaf.CaseM.windTunnelInit_ok_iff",
    "Mapleaf.CaseM.windTunnelInit_default",
    "Mapleaf.CaseM.runSweep_spec",
    "Mapleaf.CaseM.runSweep_smooth",
    "Mapleaf.CaseM.sweep_logs_violated",
    "Mapleaf.CaseM.runSweep_empty"
   ],
   "note": "Proved: overrides, dispatch, ranges, sweeps, validation figures. False and shown so: default recording records nothing, logging can be switched off, case names containing Results, missing columns end the batch, refinement default, signed errors cancel, zero values, closest curve, sweeps with logging level 0."
  },
  {
   "property": "C82",
   "status": "partial",
   "theorems": [
    "Mapleaf.Replay.cacheState_appends",
    "Mapleaf.Replay.cacheState_error_iff",
    "Mapleaf.Replay.record_appends",
    "Mapleaf.Replay.record_controlled",
    "Mapleaf.Replay.record_uncontrolled",
    "Mapleaf.Replay.stateAt_inside",
    "Mapleaf.Replay.stateAt_before",
    "Mapleaf.Replay.stateAt_after",
    "Mapleaf.Replay.stateAt_total",
    "Mapleaf.Replay.deflAt_spec",
    "Mapleaf.Replay.maxTime_spec",
    "Mapleaf.Replay.keepN_ok_iff",
    "Mapleaf.Replay.keepN_total",
    "Mapleaf.Replay.flight_time_violated",
    "Mapleaf.Replay.targets_violated",
    "Mapleaf.Replay.shown_orientation_violated",
    "Mapleaf.Replay.landed_orientation_violated",
    "Mapleaf.Replay.apogee_violated",
    "Mapleaf.Replay.dropped_canards_violated",
    "Mapleaf.Replay.eventFrame_spec",
    "Mapleaf.Replay.pathColour_spec",
    "Mapleaf.Replay.unpowered_stage_violated",
    "Mapleaf.Replay.frames_spec",
    "Mapleaf.Replay.last_frame_violated",
    "Mapleaf.Replay.file_name_violated",
    "Mapleaf.Replay.referenceVectors_spec",
    "Mapleaf.Replay.rocketPoints_six",
    "Mapleaf.Replay.rocketPoints_canards",
    "Mapleaf.Replay.rocketPoints_three",
    "Mapleaf.Replay.plotSize_spec",
    "Mapleaf.Replay.box_violated",
    "Mapleaf.Replay.setUp_total",
    "Mapleaf.Replay.no_actuators_violated"
   ],
   "note": "Proved: recording, resampling of positions, velocities and deflections, events, drawing. False and shown so: orientations are those of the next state (of the start after landing), recorded flights are overwritten (flight times, apogee, targets), dropped canards, unpowered dropped stages, last frame, file name, box."
  },
  {
   "property": "C83",
   "status": "partial",
   "theorems": [
    "Mapleaf.Console.writeLine_spec",
    "Mapleaf.Console.writeLine_violated",
    "Mapleaf.Console.writeToFile_spec",
    "Mapleaf.Console.prints_logged",
    "Mapleaf.Console.prints_plain",
    "Mapleaf.Console.session_logged",
    "Mapleaf.Console.session_unlogged",
    "Mapleaf.Console.stdout_violated",
    "Mapleaf.Console.nested_violated",
    "Mapleaf.Console.system_info_violated",
    "Mapleaf.Console.crash_trace_violated",
    "Mapleaf.Console.exit_status_violated",
    "Mapleaf.Console.dump_print_violated",
    "Mapleaf.Console.withLineEnd_spec",
    "Mapleaf.Console.mcFile_spec",
    "Mapleaf.Console.mean_ok_iff",
    "Mapleaf.Console.stdev_ok_iff",
    "Mapleaf.Console.numbered_spec",
    "Mapleaf.Console.scalarLines_iff",
    "Mapleaf.Console.vectorLines_spec",
    "Mapleaf.Console.vectorLines_isOk_iff",
    "Mapleaf.Console.requested_iff",
    "Mapleaf.Console.summary_ok_iff",
    "Mapleaf.Console.summary_isOk_iff",
    "Mapleaf.Console.showResults_iff",
    "Mapleaf.Console.single_run_violated",
    "Mapleaf.Console.headerLine_iff",
    "Mapleaf.Console.skipRows_isOk_iff",
    "Mapleaf.Console.rows_spec",
    "Mapleaf.Console.rowsRead_sublist",
    "Mapleaf.Console.two_drops_violated",
    "Mapleaf.Console.colorPalette_spec"
   ],
   "note": "Proved: what reaches terminal and logs, the console log file, Monte Carlo log and statistics, rows read, palettes. False and shown so: loggers stay installed and hide the output from earlier ones, system information only once per process, stack traces missing, crash exits with success, one run cannot be summarized, rows of earlier dropped stages are read."
  },
  {
   "property": "C84",
   "status": "partial",
   "theorems": [
    "Mapleaf.Rocket.noseForce_iff",
    "Mapleaf.Rocket.transForce_iff",
    "Mapleaf.Rocket.boatTailForce_iff",
    "Mapleaf.Rocket.conePressure_nonneg",
    "Mapleaf.Rocket.hull_normal",
    "Mapleaf.Rocket.straight_flight",
    "Mapleaf.Rocket.nose_brakes",
    "Mapleaf.Rocket.below_brakes",
    "Mapleaf.Rocket.hull_dissipates",
    "Mapleaf.Rocket.cp_weighted",
    "Mapleaf.Rocket.straight_transition_violated",
    "Mapleaf.Rocket.sonic_nose_violated",
    "Mapleaf.Rocket.readLead_iff",
    "Mapleaf.Rocket.readTrail_iff",
    "Mapleaf.Rocket.FinShape.thicknessK_ok_iff",
    "Mapleaf.Rocket.FinShape.thickness_base",
    "Mapleaf.Rocket.FinShape.dragCd_value",
    "Mapleaf.Rocket.FinShape.dragCd_pos",
    "Mapleaf.Rocket.FinShape.flat_fin_violated",
    "Mapleaf.Rocket.FinShape.sonic_match_iff",
    "Mapleaf.Rocket.FinShape.sonic_intended",
    "Mapleaf.Rocket.FinShape.thickness_violated"
   ],
   "note": "Proved: the exact forces, closed hull, straight flight, energy, centre of pressure, fin drag. False and shown so: straight transitions, widening boat tails and flat fins cannot be evaluated, nothing can at exactly Mach 1, the thickness drag of fins misses its sonic value and jumps at Mach 1."
  },
  {
   "property": "C85",
   "status": "partial",
   "theorems": [
    "Mapleaf.Motion.Eqv.pyEq_true_iff",
    "Mapleaf.Motion.Eqv.pyEq_false_iff",
    "Mapleaf.Motion.Eqv.pyEq_raises_iff",
    "Mapleaf.Motion.Eqv.pyNe_iff",
    "Mapleaf.Motion.Eqv.dictEq_iff",
    "Mapleaf.Motion.Eqv.equality_equivalence",
    "Mapleaf.Motion.Eqv.equal_values",
    "Mapleaf.Motion.Eqv.definition_file_irrelevant",
    "Mapleaf.Motion.Eqv.quatInit_spec",
    "Mapleaf.Motion.Eqv.quatInit_unit",
    "Mapleaf.Motion.Eqv.angInit_spec",
    "Mapleaf.Motion.Eqv.angInit_rate",
    "Mapleaf.Motion.Eqv.stateInit_spec",
    "Mapleaf.Motion.Eqv.derivAbs_zero_iff",
    "Mapleaf.Motion.Eqv.derivAbs_value",
    "Mapleaf.Motion.Eqv.quatInit_vec",
    "Mapleaf.Motion.Eqv.product_spec",
    "Mapleaf.Motion.Eqv.compare_none_violated",
    "Mapleaf.Motion.Eqv.asymmetric_violated",
    "Mapleaf.Motion.Eqv.stateList_violated",
    "Mapleaf.Motion.Eqv.threeDoF_violated",
    "Mapleaf.Motion.Eqv.opposite_quaternions_violated",
    "Mapleaf.Motion.Eqv.angInit_silent_violated",
    "Mapleaf.Motion.Eqv.derivAbs_blind_violated",
    "Mapleaf.Motion.Eqv.mixed_product_violated"
   ],
   "note": "Proved: the exact outcome of == for every pair of objects, equivalence apart from state lists, constructors, products. False and shown so: quaternions and force systems compared with anything else raise, state lists compare by their common prefix and equal the empty string, 3-DoF states compare by identity, an angular velocity without information is zero, the product of a vector and an angular velocity raises."
  },
  {
   "property": "C86",
   "status": "partial",
   "theorems": [
    "Mapleaf.Run.OptSetup.loadDefinition_spec",
    "Mapleaf.Run.OptSetup.factory_definition",
    "Mapleaf.Run.OptSetup.factory_other",
    "Mapleaf.Run.OptSetup.pickMethod_pso",
    "Mapleaf.Run.OptSetup.pickMethod_scipy",
    "Mapleaf.Run.OptSetup.pickMethod_error",
    "Mapleaf.Run.OptSetup.dependentKey_spec",
    "Mapleaf.Run.OptSetup.loadDependent_iff",
    "Mapleaf.Run.OptSetup.loadBatch_cases",
    "Mapleaf.Run.OptSetup.caseSim_values",
    "Mapleaf.Run.OptSetup.definitions_single",
    "Mapleaf.Run.OptSetup.definitions_batch",
    "Mapleaf.Run.OptSetup.swarmOptions_iff",
    "Mapleaf.Run.OptSetup.swarm_rows",
    "Mapleaf.Run.OptSetup.costKind_spec",
    "Mapleaf.Run.OptSetup.controlLog_spec",
    "Mapleaf.Run.OptSetup.errorIntegral_sum",
    "Mapleaf.Run.OptSetup.momentCost_spec",
    "Mapleaf.Run.OptSetup.momentCost_zero",
    "Mapleaf.Run.OptSetup.momentCost_columns",
    "Mapleaf.Run.OptSetup.filesLeft_iff",
    "Mapleaf.Run.OptSetup.default_scipy_violated",
    "Mapleaf.Run.OptSetup.nested_name_violated",
    "Mapleaf.Run.OptSetup.outside_violated",
    "Mapleaf.Run.OptSetup.nested_batch_violated",
    "Mapleaf.Run.OptSetup.particles_default_violated"
   ],
   "note": "Proved: everything stated, for dependent variables inside an Optimization dictionary whose names do not mention DependentVariables. False and shown so: scipy without a method is an IndexError, a default number of particles exists but cannot be used, dependent variables with DependentVariables in their name or found outside the dictionary set another entry, a nested optimisation inside a batch one reads the case's definition and raises KeyError."
  },
  {
   "property": "C87",
   "status": "partial",
   "theorems": [
    "Mapleaf.Run.ConvRun.setUp_time",
    "Mapleaf.Run.ConvRun.setUp_other",
    "Mapleaf.Run.ConvRun.setUp_spec",
    "Mapleaf.Run.ConvRun.study_ok",
    "Mapleaf.Run.ConvRun.study_error",
    "Mapleaf.Run.ConvRun.study_count",
    "Mapleaf.Run.ConvRun.run_definition",
    "Mapleaf.Run.ConvRun.checkOne_values",
    "Mapleaf.Run.ConvRun.checkThree_iff",
    "Mapleaf.Run.ConvRun.checkThree_parts",
    "Mapleaf.Run.ConvRun.stops_iff",
    "Mapleaf.Run.ConvRun.schemes_spec",
    "Mapleaf.Run.ConvRun.schemes_end",
    "Mapleaf.Run.ConvRun.compare_spec",
    "Mapleaf.Run.ConvRun.compare_figure",
    "Mapleaf.Run.ConvRun.planar_violated",
    "Mapleaf.Run.ConvRun.early_violated",
    "Mapleaf.Run.ConvRun.controlled_violated",
    "Mapleaf.Run.ConvRun.controlled_adaptive_violated",
    "Mapleaf.Run.ConvRun.figure_violated",
    "Mapleaf.Run.ConvRun.mixed_violated"
   ],
   "note": "Proved: set-up, steps, records, checks, stopping and the table of a comparison; that other entries of the definition stay as they are, and the comparison theorems, for simulations that do not change the definition. False and shown so: flights without motion in one coordinate cannot be studied with three or more simulations; a study that stops at convergence returns a flight instead of wall times; with a control system of fixed rate the step is replaced, so adaptive methods cannot be studied and long steps make the study fail; adaptive schemes in the classical comparison do not start afresh; saving the figure needs a folder of the developers. Text of numbers is assumed to be read back exactly for the numbers written."
  },
  {
   "property": "C88",
   "status": "partial",
   "theorems": [
    "Mapleaf.Run.Fig.label_kept",
    "Mapleaf.Run.Fig.limits_ok_iff",
    "Mapleaf.Run.Fig.legendLabels_spec",
    "Mapleaf.Run.Fig.setUp_ok_iff",
    "Mapleaf.Run.Fig.drawOne_ok_iff",
    "Mapleaf.Run.Fig.plotData_ok_iff",
    "Mapleaf.Run.Fig.stepLog_ok_iff",
    "Mapleaf.Run.Fig.curves_partial",
    "Mapleaf.Run.Fig.located_spec",
    "Mapleaf.Run.Fig.compareData_ok_iff",
    "Mapleaf.Run.Fig.toValidate_iff",
    "Mapleaf.Run.Fig.stepComp_ok_iff",
    "Mapleaf.Run.Fig.comparisons_ok_iff",
    "Mapleaf.Run.Fig.saved_partial",
    "Mapleaf.Run.Fig.saved_plain_partial",
    "Mapleaf.Run.Fig.saveDirectory_spec",
    "Mapleaf.Run.Fig.basename_spec",
    "Mapleaf.Run.Fig.dirname_spec",
    "Mapleaf.Run.Fig.generate_ok_iff",
    "Mapleaf.Run.Fig.xscale_violated",
    "Mapleaf.Run.Fig.no_columns_violated",
    "Mapleaf.Run.Fig.missing_x_violated",
    "Mapleaf.Run.Fig.many_columns_violated",
    "Mapleaf.Run.Fig.second_log_violated",
    "Mapleaf.Run.Fig.twice_violated",
    "Mapleaf.Run.Fig.dot_directory_violated",
    "Mapleaf.Run.Fig.returned_violated",
    "Mapleaf.Run.Fig.bare_name_violated",
    "Mapleaf.Run.Fig.no_location_violated"
   ],
   "note": "Proved: settings, curves, comparison data, validation choice, warnings, errors and saving, as exact characterisations of successful figures. Curves: for logs in which no column is hit twice and the x column is present. False and shown so: labels and formats start again in every log; more columns than formats, a missing x column, missing columns or a missing place to save raise and end the batch; a specification that also hits x leaves unequal data; xScale sets the y axis; names without extension in a directory with a dot lose their name; bare names go to the installation; files not written are returned."
  },
  {
   "property": "C89",
   "status": "partial",
   "theorems": [
    "Mapleaf.Rec.sweepEntry_several_texts",
    "Mapleaf.Rec.checkEntry_ok_iff",
    "Mapleaf.Rec.fullFlight_ok_iff",
    "Mapleaf.Rec.sweepEntry_ok_iff",
    "Mapleaf.Rec.sweepCase_ok_iff",
    "Mapleaf.Rec.runCase_ok_iff",
    "Mapleaf.Rec.drawFigure_ok_iff",
    "Mapleaf.Rec.run_ok_iff",
    "Mapleaf.Rec.report_spec",
    "Mapleaf.Rec.newFile_partial",
    "Mapleaf.Rec.prepareCase_same",
    "Mapleaf.Rec.readSweeps_same",
    "Mapleaf.Rec.smoothLine_same",
    "Mapleaf.Rec.passes_self",
    "Mapleaf.Rec.case_again",
    "Mapleaf.Rec.flight_outcome",
    "Mapleaf.Rec.flight_recorded",
    "Mapleaf.Rec.written_partial",
    "Mapleaf.Rec.rerun_passes_partial",
    "Mapleaf.Rec.rerun_file_partial",
    "Mapleaf.Rec.nothing_selected_violated",
    "Mapleaf.Rec.overwrites_violated",
    "Mapleaf.Rec.folder_violated",
    "Mapleaf.Rec.nan_violated",
    "Mapleaf.Rec.inf_violated",
    "Mapleaf.Rec.missing_column_violated",
    "Mapleaf.Rec.default_results_violated"
   ],
   "note": "Proved: the exact outcome of every entry, case and batch, the summary, what recording changes, and the second run - for cases named apart from their own dictionaries, flights with expected results, recorded values that are numbers and read back, sweeps recorded without refinement, and figures that do not depend on expected results; from the file itself for definitions in the order of the format. False and shown so: an empty selection passes; recorded nan or inf never match; a missing column while recording ends the batch and loses all; results added by default are never recorded; definitions not called .mapleaf are overwritten; refined sweeps cannot be checked against what they recorded (record_then_check_violated, C49)."
  },
  {
   "property": "C90",
   "status": "partial",
   "theorems": [
    "Mapleaf.FLog.rows_add_up_partial",
    "Mapleaf.FLog.log_rows",
    "Mapleaf.FLog.eval_row",
    "Mapleaf.FLog.eval_cell",
    "Mapleaf.FLog.chute_row",
    "Mapleaf.FLog.create_spec",
    "Mapleaf.FLog.create_unlogged",
    "Mapleaf.FLog.stemOf_spec",
    "Mapleaf.FLog.newForceLog_spec",
    "Mapleaf.FLog.baseColumns_fills",
    "Mapleaf.FLog.evaluate_fresh",
    "Mapleaf.FLog.evaluate_again",
    "Mapleaf.FLog.evaluate_chute",
    "Mapleaf.FLog.evaluate_unlogged",
    "Mapleaf.FLog.evaluate_foreign",
    "Mapleaf.FLog.repeat_violated",
    "Mapleaf.FLog.discard_all_violated",
    "Mapleaf.FLog.sweep_violated"
   ],
   "note": "Proved: one row per evaluation, its exact cells, the columns of a rocket, and that the component columns of every row add up to the aerodynamic force in every history in which no rocket is evaluated twice in a row with the same arguments. False and shown so: an evaluation with the arguments of the previous one leaves the component columns zero; all rows of a parameter sweep but the first have zero component columns; a rejected step takes rows from the logs of all rockets."
  },
  {
   "property": "C91",
   "status": "partial",
   "theorems": [
    "Mapleaf.Motion.Body.state_list_step",
    "Mapleaf.Motion.Body.state_list_euler",
    "Mapleaf.Motion.Body.rocketRhs_ok",
    "Mapleaf.Motion.Body.rocketRhs_body_error",
    "Mapleaf.Motion.Body.coast_step",
    "Mapleaf.Motion.Body.list_stage",
    "Mapleaf.Motion.Body.state_list_attempt_violated",
    "Mapleaf.Motion.Body.coast_adaptive_violated",
    "Mapleaf.Motion.Body.sample_spec",
    "Mapleaf.Motion.Body.sample_force_violated"
   ],
   "note": "Proved for all fixed-step methods. False for the adaptive methods and shown so: with a list of values only the first derivative counts, so a coasting rocket moves by 2/9 (RK23), 9 % (RK45), 4 % (RK78) or nothing (RK12) of the right distance. The sample component's force raises an AttributeError."
  },
  {
   "property": "C92",
   "status": "partial",
   "theorems": [
    "Mapleaf.Motion.Body.six_dof_step",
    "Mapleaf.Motion.Body.six_dof_euler",
    "Mapleaf.Motion.Body.bodyRhs_defined",
    "Mapleaf.Motion.Body.spin_step",
    "Mapleaf.Motion.Body.spin_flight",
    "Mapleaf.Motion.Body.steady_body",
    "Mapleaf.Motion.Body.adaptive_stage",
    "Mapleaf.Motion.Body.six_dof_attempt",
    "Mapleaf.Motion.Body.no_full_turn",
    "Mapleaf.Motion.Body.adaptive_stage_partial",
    "Mapleaf.Motion.Body.adaptive_spin_partial",
    "Mapleaf.Motion.Body.adaptive_stage_reversed_violated",
    "Mapleaf.Motion.Body.adaptive_stage_full_turn_violated",
    "Mapleaf.Motion.Body.adaptive_stage_axes_violated",
    "Mapleaf.Motion.Body.turn_add",
    "Mapleaf.Motion.Body.turn_fixes"
   ],
   "note": "Proved for all fixed-step methods. For the adaptive methods the stage states and the result are characterised exactly; the stage orientation is right for steady spin of at most one revolution per second. False and shown so beyond that: stages turned backwards between one and two revolutions per second, a division by zero at a full turn, and wrong axes when the axis of rotation changes."
  },
  {
   "property": "C93",
   "status": "partial",
   "theorems": [
    "Mapleaf.Motion.Lim.rk4_converges_partial",
    "Mapleaf.Motion.Lim.rk4_order_violated",
    "Mapleaf.Motion.Lim.rk4_code",
    "Mapleaf.Motion.Lim.rk4_near",
    "Mapleaf.Motion.Lim.rk4_bounded",
    "Mapleaf.Motion.Lim.classical_converges",
    "Mapleaf.Motion.Lim.classical_converges_rough",
    "Mapleaf.Motion.Lim.fall_converges",
    "Mapleaf.Motion.Lim.midpoint_converges_partial",
    "Mapleaf.Motion.Lim.midpoint_bias_violated",
    "Mapleaf.Motion.Lim.midpoint_code",
    "Mapleaf.Motion.Lim.exact_methods",
    "Mapleaf.Motion.Lim.classical_rk",
    "Mapleaf.Motion.Lim.euler_rk",
    "Mapleaf.Motion.Lim.flight_march",
    "Mapleaf.Motion.Lim.rk_converges",
    "Mapleaf.Motion.Lim.rk_first_order",
    "Mapleaf.Motion.Lim.rk_error",
    "Mapleaf.Motion.Lim.march_error",
    "Mapleaf.Motion.Lim.local_error",
    "Mapleaf.Motion.Lim.stage_expansion",
    "Mapleaf.Motion.Lim.exact_expansion",
    "Mapleaf.Motion.Lim.taylor_near",
    "Mapleaf.Motion.Lim.patched_near"
   ],
   "note": "Proved for Euler, Heun's method and the 3/8 rule with the order promised. RK4 has zeros in its tableau that the code replaces by 1e-16: its error is at most C (h^4 + eps h) with C independent of the replacement value eps (rk4_converges_partial), and for a constant acceleration it is exactly of first order (rk4_order_violated). For the midpoint rule, whose first weight is replaced, the limit is off by 1e-16 times a constant (midpoint_converges_partial, midpoint_bias_violated). Exact arithmetic; for orientations of 6-DoF bodies see C94."
  },
  {
   "property": "C94",
   "status": "partial",
   "theorems": [
    "Mapleaf.Motion.Turn.rigid_body_converges",
    "Mapleaf.Motion.Turn.rigid_body_converges_partial",
    "Mapleaf.Motion.Turn.tumbling_order_violated",
    "Mapleaf.Motion.Turn.third_order_violated",
    "Mapleaf.Motion.Turn.body_converges_smooth",
    "Mapleaf.Motion.Turn.body_converges_smooth_partial",
    "Mapleaf.Motion.Turn.body_converges",
    "Mapleaf.Motion.Turn.body_converges_rough",
    "Mapleaf.Motion.Turn.body_converges_partial",
    "Mapleaf.Motion.Turn.tableau_code",
    "Mapleaf.Motion.Turn.body_methods",
    "Mapleaf.Motion.Turn.real_step",
    "Mapleaf.Motion.Turn.tableau_step",
    "Mapleaf.Motion.Turn.rigid_setup",
    "Mapleaf.Motion.Turn.rigid_rhs",
    "Mapleaf.Motion.Turn.smooth_rate",
    "Mapleaf.Motion.Turn.smooth_lip",
    "Mapleaf.Motion.Turn.apart_le_iff",
    "Mapleaf.Motion.Turn.turns_defect",
    "Mapleaf.Motion.Turn.turns_missed",
    "Mapleaf.Motion.Turn.spin_step",
    "Mapleaf.Motion.Turn.ord_turn38"
   ],
   "note": "Proved for Euler (first order), Heun's method and the 3/8 rule (second order). The fourth order is false: for a sphere turning with w under a constant moment tau not along w the 3/8 rule misses the orientation by at least c h^2 (tumbling_order_violated), because the stages add rotation vectors taken at different orientations. RK4 and the midpoint rule with the zeros replaced by 1e-16: C (h^2 + eps h) and C (h^2 + eps), C independent of eps. Exact arithmetic; adaptive methods are not covered."
  },
  {
   "property": "C95",
   "status": "proved",
   "theorems": [
    "Mapleaf.Rocket.launch_flight",
    "Mapleaf.Rocket.launch_vertical",
    "Mapleaf.Rocket.fly_vertical",
    "Mapleaf.Rocket.fly_still",
    "Mapleaf.Rocket.Craft.force_axial",
    "Mapleaf.Rocket.Craft.force_plain",
    "Mapleaf.Rocket.Craft.cg_onAxis",
    "Mapleaf.Rocket.Craft.rhs_straight",
    "Mapleaf.Rocket.Craft.rhs_sliding",
    "Mapleaf.Rocket.Craft.step_vertical",
    "Mapleaf.Rocket.Part.applied_axial",
    "Mapleaf.Rocket.Part.applied_still",
    "Mapleaf.Rocket.FinSet.force_axial",
    "Mapleaf.Rocket.FinSet.force_still",
    "Mapleaf.Rocket.FinSet.fin_ok",
    "Mapleaf.Rocket.constrain_upright",
    "Mapleaf.Rocket.integrate_upright",
    "Mapleaf.Rocket.integrate_fixed",
    "Mapleaf.Rocket.upright_keeps",
    "Mapleaf.Rocket.fixed_keeps",
    "Mapleaf.Rocket.yaw_rotate",
    "Mapleaf.Rocket.Ascent.start_flight",
    "Mapleaf.Rocket.Ascent.fins_built",
    "Mapleaf.Motion.Body.Keeps.rkStep",
    "Mapleaf.Motion.Body.Keeps.attempt",
    "Mapleaf.Motion.Body.Keeps.classicalStep"
   ],
   "note": "Exact arithmetic. Flights before any parachute is deployed; flights that end in an error are not restricted. Wind and atmosphere models are arbitrary functions whose answers have no lateral wind."
  },
  {
   "property": "C96",
   "status": "proved",
   "theorems": [
    "Mapleaf.Rocket.turned_flight",
    "Mapleaf.Rocket.shifted_flight",
    "Mapleaf.Rocket.launch_moved",
    "Mapleaf.Rocket.launch_east",
    "Mapleaf.Rocket.fly_turn",
    "Mapleaf.Rocket.timeStep_turn",
    "Mapleaf.Rocket.integrate_turn",
    "Mapleaf.Rocket.rhs_turn",
    "Mapleaf.Rocket.applied_turn",
    "Mapleaf.Rocket.flow_turn",
    "Mapleaf.Rocket.gravity_turn",
    "Mapleaf.Rocket.rail_force_turn",
    "Mapleaf.Rocket.rail_constrain_turn",
    "Mapleaf.Rocket.flat_moved",
    "Mapleaf.Rocket.round_moved",
    "Mapleaf.Rocket.altitude_turn",
    "Mapleaf.Rocket.enu_turn",
    "Mapleaf.Rocket.round_gravity_turn",
    "Mapleaf.Rocket.toGlobal_lon",
    "Mapleaf.Rocket.moveToCG_turn",
    "Mapleaf.Rocket.Turned.free_flight",
    "Mapleaf.Rocket.Turned.compass_rail_violated",
    "Mapleaf.Rocket.Turned.equator_rail_violated",
    "Mapleaf.Motion.Body.Hom.rkStep",
    "Mapleaf.Motion.Body.Hom.eulerStep",
    "Mapleaf.Motion.Body.Hom.classicalStep",
    "Mapleaf.Motion.Body.Hom.attempt",
    "Mapleaf.Motion.turn_hom",
    "Mapleaf.Motion.derivative_turn",
    "Mapleaf.Rocket.turned_mission",
    "Mapleaf.Rocket.turned_records",
    "Mapleaf.Rocket.shifted_records",
    "Mapleaf.Rocket.turned_adaptive",
    "Mapleaf.Rocket.mission_swing",
    "Mapleaf.Rocket.flyAll_swing",
    "Mapleaf.Rocket.timeStep_swing",
    "Mapleaf.Rocket.advance_swing",
    "Mapleaf.Rocket.estimate_swing",
    "Mapleaf.Rocket.chuteRhs_turn",
    "Mapleaf.Rocket.chuteForce_turn",
    "Mapleaf.Rocket.rail_force_turn3",
    "Mapleaf.Rocket.turn_hom3"
   ],
   "note": "Exact arithmetic. Whole simulations (turned_mission, shifted_records): flat ground or none; the round earths are covered for flights before any parachute. Rails that are not vertical in global axes do have a preferred direction: compass_rail_violated, equator_rail_violated."
  },
  {
   "property": "C97",
   "status": "proved",
   "theorems": [
    "Mapleaf.Rocket.Craft.static_stability",
    "Mapleaf.Rocket.Craft.turn_rate",
    "Mapleaf.Rocket.Craft.tilt_sum",
    "Mapleaf.Rocket.Craft.logged_cp",
    "Mapleaf.Rocket.Part.acts_at",
    "Mapleaf.Rocket.hull_push",
    "Mapleaf.Rocket.FinSet.still_formula",
    "Mapleaf.Rocket.FinSet.acts_at_cp",
    "Mapleaf.Rocket.FinSet.push_sign",
    "Mapleaf.Rocket.FinSet.three_fins",
    "Mapleaf.Rocket.aoa_lateral",
    "Mapleaf.Rocket.tube_acts",
    "Mapleaf.Rocket.Ascent.arrow_turns"
   ],
   "note": "Exact arithmetic, no parachute. Fins push with the wind outside Mach 0.8 to 1.4 always, inside if no slice is further than three chords from the tip (C45). Below about 0.008 degrees the code takes the angle of attack as zero (aoa_lateral), so that only fins and tabulated forces have side forces."
  },
  {
   "property": "C98",
   "status": "proved",
   "theorems": [
    "Mapleaf.Rocket.craft_says",
    "Mapleaf.Rocket.part_width",
    "Mapleaf.Rocket.chutes_say",
    "Mapleaf.Rocket.system_says",
    "Mapleaf.Rocket.liftoff_inertia",
    "Mapleaf.Rocket.craft_symmetric",
    "Mapleaf.Rocket.craft_rolless",
    "Mapleaf.Rocket.definition_flight",
    "Mapleaf.Rocket.second_motor_violated",
    "Mapleaf.Rocket.readPart_says",
    "Mapleaf.Rocket.stageFinish_says",
    "Mapleaf.Rocket.mark_count",
    "Mapleaf.Rocket.Toy.craft_toy",
    "Mapleaf.Rocket.Toy.even_toy",
    "Mapleaf.Rocket.Toy.liftoff_toy"
   ],
   "note": "Exact arithmetic. Reading a key is a parameter of the model (C01 to C10 cover it). An upper stage with two motors has one that burns from launch (second_motor_violated). Fin sets with 5 to 8 fins are built by the code but fail at the first force evaluation; the model stops at construction."
  },
  {
   "property": "C99",
   "status": "partial",
   "theorems": [
    "Mapleaf.Rocket.mission_lands",
    "Mapleaf.Rocket.vessel_even",
    "Mapleaf.Rocket.vessel_plain",
    "Mapleaf.Rocket.vessel_craft",
    "Mapleaf.Rocket.separation_state",
    "Mapleaf.Rocket.chute_acceleration",
    "Mapleaf.Rocket.other_chute_violated",
    "Mapleaf.Rocket.drop_under_chute_violated",
    "Mapleaf.Rocket.fine_mission",
    "Mapleaf.Rocket.Trip.vessel_trip",
    "Mapleaf.Rocket.Trip.mission_trip",
    "Mapleaf.Rocket.Trip.even_trip",
    "Mapleaf.Rocket.Trip.pair_separate"
   ],
   "note": "Exact arithmetic, no control system, no logs. The path and landing clauses hold for every run that completes. Partial because of the parachutes: with several recovery systems only the last one made has any drag (other_chute_violated), and a stage dropped while the rocket hangs on a parachute cannot be simulated (drop_under_chute_violated)."
  }
 ]
}