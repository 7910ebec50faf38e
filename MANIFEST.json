{
 "claims": [
  {
   "property": "C01",
   "status": "proved",
   "theorems": [
    "Polycap.ErrApi.first_error_kept",
    "Polycap.ErrApi.null_slot_no_effect",
    "Polycap.ErrApi.error_history_correct"
   ],
   "note": "Refinement of every ownership-respecting history to a plain map of variables; allocations assumed to succeed (set_error_oom_ub shows what happens otherwise)."
  },
  {
   "property": "C02",
   "status": "proved",
   "theorems": [
    "Polycap.ErrApi.error_history_correct",
    "Polycap.ErrApi.error_no_leak",
    "Polycap.ErrApi.error_matches_iff",
    "Polycap.ErrApi.set_error_null_format_occupied_ub",
    "Polycap.ErrApi.set_error_oom_ub"
   ],
   "note": "No UB, no leak, no sharing over all histories; two findings on NULL format / out of memory."
  },
  {
   "property": "C03",
   "status": "proved",
   "theorems": [
    "Polycap.profile_new_rejects",
    "Polycap.profile_new_accepts",
    "Polycap.profile_new_unknown_type",
    "Polycap.profile_new_domain",
    "Polycap.profile_new_accepts_nan"
   ],
   "note": "Generic in the number type; profile_new_domain is the exact domain over the reals; finding: NaN arguments are accepted."
  },
  {
   "property": "C04",
   "status": "proved",
   "theorems": [
    "Polycap.conical_profile_sound"
   ],
   "note": "Exact reals."
  },
  {
   "property": "C05",
   "status": "partial",
   "theorems": [
    "Polycap.ellipsoidal_ends_iff",
    "Polycap.ellipsoidal_ends_partial",
    "Polycap.ellipsoidal_infeasible_nan",
    "Polycap.ellipsoidal_exit_wrong",
    "Polycap.ellipsoidal_equal_radii_nan"
   ],
   "note": "False of the code for infeasible focal distances; ellipsoidal_ends_iff says exactly when the ends are met, and that all radii are then real and between the ends (infeasible narrowing optics: every radius NaN)."
  },
  {
   "property": "C06",
   "status": "proved",
   "theorems": [
    "Polycap.profile_z_cap_independent_of_type"
   ],
   "note": ""
  },
  {
   "property": "C08",
   "status": "proved",
   "theorems": [
    "Polycap.new_from_arrays_roundtrip",
    "Polycap.profile_get_correct",
    "Polycap.profile_get_null",
    "Polycap.new_from_arrays_rejects"
   ],
   "note": ""
  },
  {
   "property": "C09",
   "status": "proved",
   "theorems": [
    "Polycap.validate_poly_iff",
    "Polycap.validate_mono_iff",
    "Polycap.validate_null",
    "Polycap.validate_accepts_nan"
   ],
   "note": "Exact iff; finding: NaN profiles are accepted."
  },
  {
   "property": "C10",
   "status": "proved",
   "theorems": [
    "Polycap.description_new_domain",
    "Polycap.description_new_null_arrays",
    "Polycap.description_new_null_profile_ub"
   ],
   "note": "Exact domain, any number type; finding: a NULL profile is dereferenced."
  },
  {
   "property": "C11",
   "status": "partial",
   "theorems": [
    "Polycap.description_null_reports",
    "Polycap.description_null_iff_error_partial",
    "Polycap.description_bad_weights_returned",
    "Polycap.description_null_iff_error_false"
   ],
   "note": "False of the code: bad weights give an object and an error. NULL implies error is proved; the equivalence is proved for accepted compositions."
  },
  {
   "property": "C12",
   "status": "partial",
   "theorems": [
    "Polycap.weights_accepted_iff",
    "Polycap.weights_stored",
    "Polycap.weights_normalised",
    "Polycap.weights_recheck",
    "Polycap.weights_nonneg_partial",
    "Polycap.weights_negative_accepted",
    "Polycap.weights_rejected_rescaled"
   ],
   "note": "Everything but non-negativity, which is false of the code ((2,-1) is accepted)."
  },
  {
   "property": "C13",
   "status": "proved",
   "theorems": [
    "Polycap.nShells_of_full_stacking",
    "Polycap.nShells_spec",
    "Polycap.nShells_mono",
    "Polycap.nShells_zero_iff",
    "Polycap.nShells_gap",
    "Polycap.nCapFull_hexagonal",
    "Polycap.nCapFull_of_full",
    "Polycap.openArea_spec"
   ],
   "note": ""
  },
  {
   "property": "C14",
   "status": "proved",
   "theorems": [
    "Polycap.description_reads_back"
   ],
   "note": ""
  },
  {
   "property": "C15",
   "status": "proved",
   "theorems": [
    "Polycap.boundary_spec",
    "Polycap.boundary_regular_hexagon",
    "Polycap.boundary_symmetric",
    "Polycap.boundary_convex",
    "Polycap.boundary_scale",
    "Polycap.boundary_mono",
    "Polycap.boundary_contains_disc",
    "Polycap.boundary_inside_disc",
    "Polycap.boundary_error_iff"
   ],
   "note": ""
  },
  {
   "property": "C16",
   "status": "proved",
   "theorems": [
    "Polycap.nearest_capillary",
    "Polycap.nearest_capillary_ideal",
    "Polycap.centre_assigned"
   ],
   "note": "Exact reals; nearest_capillary_ideal is the statement with the exact constant, nearest_capillary quantifies the effect of the 20-digit constant used."
  },
  {
   "property": "C17",
   "status": "partial",
   "theorems": [
    "Polycap.selected_capillary_exists_partial",
    "Polycap.selected_shell_bound",
    "Polycap.selected_capillary_false"
   ],
   "note": "False of the code: positions in the optic near its border are assigned to a capillary of shell n+1, which does not exist (witness); never more than one shell off; true for positions at distance from the border."
  },
  {
   "property": "C18",
   "status": "proved",
   "theorems": [
    "Polycap.segment_sound",
    "Polycap.segment_complete",
    "Polycap.segment_normal_unit",
    "Polycap.segment_normal_orthogonal",
    "Polycap.segment_failure_keeps_position",
    "Polycap.segment_codes",
    "Polycap.segment_example"
   ],
   "note": "Exact reals, photon moving downstream and not parallel to a generator line (degenerate case: C19)."
  },
  {
   "property": "C19",
   "status": "partial",
   "theorems": [
    "Polycap.segment_nan_iff",
    "Polycap.segment_finite_partial",
    "Polycap.segment_nan_success"
   ],
   "note": "False of the code, exactly for the photons parallel to a generator line of the wall (segment_nan_iff: success with NaN coordinates iff the quadratic's leading coefficient is 0); what it does to a whole launch: C24."
  },
  {
   "property": "C41",
   "status": "proved",
   "theorems": [
    "Polycap.ReadLine.read_line_correct",
    "Polycap.ReadLine.read_lines_correct",
    "Polycap.ReadLine.line_split",
    "Polycap.ReadLine.read_line_errors",
    "Polycap.ReadLine.read_line_overflow_ub",
    "Polycap.ReadLine.read_line_realloc_ub",
    "Polycap.ReadLine.read_line_exact"
   ],
   "note": "For lines below 2^32-128 bytes (sharp: read_line_overflow_ub) and memory permitting."
  },
  {
   "property": "C44",
   "status": "partial",
   "theorems": [
    "Polycap.pc_intersect_sound_partial",
    "Polycap.pc_intersect_oob_iff",
    "Polycap.pc_intersect_terminates",
    "Polycap.pc_intersect_oob",
    "Polycap.pc_intersect_off_surface",
    "Polycap.pc_intersect_nearest"
   ],
   "note": "Terminates; exact condition for the out-of-range read (witness pc_intersect_oob); the returned point is on the line and in the segment, but not on the surface (witness)."
  },
  {
   "property": "C48",
   "status": "proved",
   "theorems": [
    "Polycap.segment_index_correct",
    "Polycap.segment_index_beyond",
    "Polycap.segId_lt",
    "Polycap.interp_ends",
    "Polycap.interp_between",
    "Polycap.interpolated_radius_between"
   ],
   "note": ""
  },
  {
   "property": "C51",
   "status": "partial",
   "theorems": [
    "Polycap.validate_accepts_overlap",
    "Polycap.openArea_above_one",
    "Polycap.no_overlap_iff",
    "Polycap.validated_overlap_partial"
   ],
   "note": "The property is false of the code: witness. no_overlap_iff gives the exact condition; what validation does guarantee (partial): no capillary's axis lies inside another capillary."
  },
  {
   "property": "C20",
   "status": "proved",
   "theorems": [
    "Polycap.reflectDir_mirror",
    "Polycap.trace_moved",
    "Polycap.launch_path"
   ],
   "note": "Exact reals; law of reflection at every corner of the trajectory of a launched photon."
  },
  {
   "property": "C21",
   "status": "proved",
   "theorems": [
    "Polycap.reflectivity_probability",
    "Polycap.reflectivities_le_one",
    "Polycap.reflTot_total"
   ],
   "note": "Holds for the amplitudes as computed by the code (the p amplitude is not the textbook one, see reflRp_not_fresnel)."
  },
  {
   "property": "C22",
   "status": "proved",
   "theorems": [
    "Polycap.launch_weights",
    "Polycap.trace_loses",
    "Polycap.launch_absorbed_iff"
   ],
   "note": "Exact reals, non-negative cross sections."
  },
  {
   "property": "C23",
   "status": "proved",
   "theorems": [
    "Polycap.launch_budget",
    "Polycap.trace_loses",
    "Polycap.neighbour_followed",
    "Polycap.neighbour_lasts"
   ],
   "note": "Per energy, leaks of leaks included (recursion unrolled to any depth)."
  },
  {
   "property": "C24",
   "status": "partial",
   "theorems": [
    "Polycap.launch_invalid",
    "Polycap.launch_codes",
    "Polycap.launch_outside_iff",
    "Polycap.launch_glass",
    "Polycap.launch_absorbed_iff",
    "Polycap.launch_transmitted_clear_partial",
    "Polycap.launch_transmitted_early",
    "Polycap.launch_beyond_not_outside",
    "Polycap.launch_parallel_absorbed",
    "Polycap.launch_straight_single"
   ],
   "note": "-1, -2, 0 and the set of codes are exact; 2 is exact except that with leak calculation a start inside glass beyond the entrance gives 1 or -1 (launch_glass); 1 means a clear path to the exit unless the reflection limit nmax+1 was reached, where the property is false (launch_transmitted_early). A start point behind the exit where the extrapolated radius is not positive is not reported as outside (launch_beyond_not_outside). A photon flying parallel to the wall of its first segment - in a straight capillary along the axis - is reported as absorbed, with NaN weights (launch_parallel_absorbed, launch_straight_single)."
  },
  {
   "property": "C25",
   "status": "partial",
   "theorems": [
    "Polycap.launch_weights_filled_partial",
    "Polycap.launch_weights_missing"
   ],
   "note": "False of the code for photons launched inside glass beyond the entrance with leak calculation (witness); proved for all others."
  },
  {
   "property": "C26",
   "status": "partial",
   "theorems": [
    "Polycap.launch_repeatable_partial",
    "Polycap.launch_not_repeatable",
    "Polycap.launch_start"
   ],
   "note": "False of the code: travelled distance and exit polarisation are not reset (witness); everything is repeatable once those two are restored."
  },
  {
   "property": "C42",
   "status": "proved",
   "theorems": [
    "Polycap.launch_travel",
    "Polycap.launch_travel_mono",
    "Polycap.launch_path"
   ],
   "note": ""
  },
  {
   "property": "C43",
   "status": "proved",
   "theorems": [
    "Polycap.launch_travel",
    "Polycap.launch_path"
   ],
   "note": "Photons launched in a capillary."
  },
  {
   "property": "C46",
   "status": "proved",
   "theorems": [
    "Polycap.amu_spec",
    "Polycap.scatf_spec",
    "Polycap.scatf_accepts_iff",
    "Polycap.amu_nonneg",
    "Polycap.amu_order",
    "Polycap.amu_linear"
   ],
   "note": ""
  },
  {
   "property": "C27",
   "status": "proved",
   "theorems": [
    "Polycap.source_new_domain",
    "Polycap.source_new_rejects",
    "Polycap.source_reads_back",
    "Polycap.source_copy_composition"
   ],
   "note": ""
  },
  {
   "property": "C28",
   "status": "proved",
   "theorems": [
    "Polycap.source_photon_geometry",
    "Polycap.source_point_quadrants",
    "Polycap.source_point_uniform_partial",
    "Polycap.source_photon_divergence",
    "Polycap.source_photon_safe",
    "Polycap.get_photon_null",
    "Polycap.get_photon_no_error"
   ],
   "note": ""
  },
  {
   "property": "C29",
   "status": "proved",
   "theorems": [
    "Polycap.uniform_illumination_inside",
    "Polycap.mono_uniform_outside"
   ],
   "note": "Polycapillary optics; for monocapillaries the generated points can lie outside (witness)."
  },
  {
   "property": "C30",
   "status": "proved",
   "theorems": [
    "Polycap.source_photon_polarisation",
    "Polycap.full_polarisation"
   ],
   "note": ""
  },
  {
   "property": "C31",
   "status": "proved",
   "theorems": [
    "Polycap.photon_from_stream",
    "Polycap.photon_stretches"
   ],
   "note": ""
  },
  {
   "property": "C50",
   "status": "partial",
   "theorems": [
    "Polycap.file_contract_partial",
    "Polycap.file_contract_false",
    "Polycap.file_bad_weights_returned",
    "Polycap.file_reads",
    "Polycap.file_missing"
   ],
   "note": "False of the code (witness: nothing is validated by the file reader); proved for files whose values lie in the domain."
  },
  {
   "property": "C32",
   "status": "proved",
   "theorems": [
    "Polycap.simulation_reports",
    "Polycap.slots_written_once",
    "Polycap.outcome_reports"
   ],
   "note": "All interleavings of the threads, any distribution of slots, any photon outcomes; counters are unbounded naturals (int64 overflow not modelled)."
  },
  {
   "property": "C33",
   "status": "proved",
   "theorems": [
    "Polycap.efficiencies_formula",
    "Polycap.efficiencies_bounds",
    "Polycap.simulation_efficiencies"
   ],
   "note": "Exact reals."
  },
  {
   "property": "C34",
   "status": "proved",
   "theorems": [
    "Polycap.schedule_irrelevant",
    "Polycap.reports_agree",
    "Polycap.efficiencies_agree"
   ],
   "note": "Exact reals for the efficiencies; with floats the order of additions changes the last digits."
  },
  {
   "property": "C35",
   "status": "proved",
   "theorems": [
    "Polycap.simulation_reports",
    "Polycap.outcome_reports"
   ],
   "note": "Photons that missed the optic (code -2) carry no leaks; photons transmitted but outside the exit window are included."
  },
  {
   "property": "C49",
   "status": "proved",
   "theorems": [
    "Polycap.threads_valid"
   ],
   "note": ""
  },
  {
   "property": "C52",
   "status": "partial",
   "theorems": [
    "Polycap.simulation_safe",
    "Polycap.simulation_no_deadlock",
    "Polycap.simulation_terminates",
    "Polycap.simulation_finishes_iff",
    "Polycap.simulation_may_not_return",
    "Polycap.simulation_safe_noleak",
    "Polycap.simulation_leak_ub",
    "Polycap.simulation_progress_overflow",
    "Polycap.simulation_few_photons"
   ],
   "note": "simulation_safe_noleak instantiates the hypotheses for a valid source and optic without leak calculation when progress reports are harmless (C77; e.g. static distribution and at most 21474837 photons per thread). The property fails with leak calculation (simulation_leak_ub: a tube, photons at its rim), for 23860930 photons on one thread (simulation_progress_overflow) and for fewer photons than threads if the first thread gets two of them (simulation_few_photons)."
  },
  {
   "property": "C53",
   "status": "proved",
   "theorems": [
    "Polycap.launch_noleak_returns"
   ],
   "note": "Exact reals."
  },
  {
   "property": "C54",
   "status": "proved",
   "theorems": [
    "Polycap.simulation_arguments",
    "Polycap.simRejects_iff",
    "Polycap.simulation_refuses"
   ],
   "note": ""
  },
  {
   "property": "C36",
   "status": "partial",
   "theorems": [
    "Polycap.started_count_partial",
    "Polycap.started_count_false",
    "Polycap.simulation_reports"
   ],
   "note": "False of the code (witness: a complete simulation): photons that are transmitted but extrapolate to a point outside the exit window are not counted as started, which raises the reported efficiency; all others are."
  },
  {
   "property": "C38",
   "status": "proved",
   "theorems": [
    "Polycap.H5.hdf5_write",
    "Polycap.H5.simulation_file"
   ],
   "note": "Holds for every result of a simulation (simulation_file). Finding: the profile datasets omit the last profile point (index nmax); the source parameters are read from the live source, not from a copy."
  },
  {
   "property": "C39",
   "status": "partial",
   "theorems": [
    "Polycap.H5.hdf5_write",
    "Polycap.H5.hdf5_close_failure",
    "Polycap.H5.hdf5_null",
    "Polycap.H5.hdf5_failure_leaks",
    "Polycap.H5.hdf5_source_needed"
   ],
   "note": "A true result with an error set occurs when only the closing calls fail (hdf5_close_failure); every other failure gives false and an error. On failure the file stays open (hdf5_failure_leaks)."
  },
  {
   "property": "C40",
   "status": "proved",
   "theorems": [
    "Polycap.H5.tables_init_safe",
    "Polycap.H5.hdf5_code",
    "Polycap.H5.codeFor_unique",
    "Polycap.H5.hdf5_code_null",
    "Polycap.H5.hdf5_empty_stack_ub"
   ],
   "note": ""
  },
  {
   "property": "C07",
   "status": "partial",
   "theorems": [
    "Polycap.profile_new_clean",
    "Polycap.new_from_arrays_oom_ub",
    "Polycap.description_new_clean_partial",
    "Polycap.description_new_leaks",
    "Polycap.source_new_leaks",
    "Polycap.Memo.sim_alloc",
    "Polycap.Memo.sim_alloc_leaks",
    "Polycap.Memo.sim_alloc_leaks_counters",
    "Polycap.Memo.leak_new_oom_ub",
    "Polycap.Memo.leak_data_oom_keeps"
   ],
   "note": "profile_new is clean; description_new is clean except that it leaks one block when the profile is infeasible; new_from_arrays has undefined behaviour on a failed array malloc; source_new leaks on a rejected description copy; a simulation that fails to allocate releases its results but leaks temporaries; leak_new does not check its second malloc."
  },
  {
   "property": "C47",
   "status": "proved",
   "theorems": [
    "Polycap.profile_free_correct",
    "Polycap.profile_free_null",
    "Polycap.profile_new_free_identity",
    "Polycap.description_new_free_identity",
    "Polycap.description_free_null",
    "Polycap.source_new_free_identity",
    "Polycap.source_free_null",
    "Polycap.ErrApi.error_free_correct",
    "Polycap.Memo.leak_free_correct",
    "Polycap.Memo.photon_free_correct",
    "Polycap.Memo.results_free",
    "Polycap.Memo.freeOrder_complete",
    "Polycap.Memo.sim_life",
    "Polycap.Memo.leak_data_then_free"
   ],
   "note": "All *_free functions; the generator of polycap_rng_free is one opaque block (external library)."
  },
  {
   "property": "C45",
   "status": "proved",
   "theorems": [
    "Polycap.Memo.leak_data_null",
    "Polycap.Memo.leak_data_empty",
    "Polycap.Memo.leak_data_copies",
    "Polycap.Memo.leak_data_then_free",
    "Polycap.Memo.leak_data_oom_keeps"
   ],
   "note": ""
  },
  {
   "property": "C37",
   "status": "partial",
   "theorems": [
    "Polycap.Get.getters_null",
    "Polycap.Get.getters_no_leaks",
    "Polycap.Get.start_data",
    "Polycap.Get.exit_data",
    "Polycap.Get.extleak_data",
    "Polycap.Get.intleak_data",
    "Polycap.Get.result_data",
    "Polycap.Get.rebuilt_direction",
    "Polycap.Get.rebuilt_upstream",
    "Polycap.Get.simulation_getters",
    "Polycap.Get.simulation_directions",
    "Polycap.Get.elec_recorded",
    "Polycap.Get.elec_not_rebuilt"
   ],
   "note": "Every recorded value is returned in its slot; directions are exact for photons moving downstream (all start directions), the sign of z is lost otherwise; electric vectors are stored rounded and cannot be rebuilt (finding)."
  },
  {
   "property": "C55",
   "status": "partial",
   "theorems": [
    "Polycap.PFile.profile_file_reads",
    "Polycap.PFile.profile_file_outcomes",
    "Polycap.PFile.profile_file_null",
    "Polycap.PFile.profile_file_bad_count",
    "Polycap.PFile.profile_file_truncated_accepted",
    "Polycap.PFile.profile_file_no_count_ub"
   ],
   "note": "Complete files are read correctly and all outcomes are classified; false of the code for incomplete files (accepted with uninitialised radii), for a first file without a count (undefined behaviour) and for closing the files after a wrong count (left open)."
  },
  {
   "property": "C56",
   "status": "proved",
   "theorems": [
    "Polycap.Prog.main_exit",
    "Polycap.Prog.main_success",
    "Polycap.Prog.main_options",
    "Polycap.Prog.file_null_reports",
    "Polycap.Prog.sim_null_reports",
    "Polycap.Prog.hdf5_false_reports"
   ],
   "note": "For every library meeting the contract that failures are reported, which the last three theorems show for the modelled library."
  },
  {
   "property": "C57",
   "status": "proved",
   "theorems": [
    "Polycap.Str.strdup_correct",
    "Polycap.Str.strndup_correct"
   ],
   "note": "The code used when the C library lacks the functions."
  },
  {
   "property": "C58",
   "status": "proved",
   "theorems": [
    "Polycap.Prog.file_null_reports",
    "Polycap.Prog.sim_null_reports",
    "Polycap.Prog.hdf5_false_reports",
    "Polycap.PFile.profile_file_null_iff_error"
   ],
   "note": ""
  },
  {
   "property": "C59",
   "status": "partial",
   "theorems": [
    "Polycap.Glass.index_used",
    "Polycap.Glass.reflectivity_glass_partial",
    "Polycap.reflRs_fresnel",
    "Polycap.reflRp_fresnel_partial",
    "Polycap.reflRp_not_fresnel"
   ],
   "note": "The refractive index is the textbook one for the composition and density (index_used). The s amplitude is exact; the p amplitude is wrong for an absorbing glass (a macro argument without parentheses), with a witness; exact without absorption. Hence the reflected intensity is the textbook one for light polarised perpendicularly to the plane of incidence, and for every polarisation when the glass does not absorb (reflectivity_glass_partial)."
  },
  {
   "property": "C60",
   "status": "partial",
   "theorems": [
    "Polycap.file_junk_reported",
    "Polycap.file_truncated_ub",
    "Polycap.file_missing",
    "Polycap.file_cut",
    "Polycap.file_word_partial"
   ],
   "note": "Words that are no numbers among the first values are reported (except as the second number of a pair); a file that ends early leads to uninitialised variables being used (false of the code)."
  },
  {
   "property": "C61",
   "status": "proved",
   "theorems": [
    "Polycap.Sess.session_refines",
    "Polycap.Sess.session_correct",
    "Polycap.Sess.session_never_stale",
    "Polycap.Sess.session_memory",
    "Polycap.Sess.session_no_leak",
    "Polycap.Sess.step_refines",
    "Polycap.Sess.reached_start"
   ],
   "note": "Refinement of the heap machine to a machine of plain values (astep), by induction on the history. Allocations succeed; the tracing and simulation computations are the functions of C20-C36, C52-C53. Blocks of photons and results themselves are covered by C45, C47."
  },
  {
   "property": "C62",
   "status": "proved",
   "theorems": [
    "Polycap.Sess.run_same",
    "Polycap.Sess.astep_same",
    "Polycap.Sess.array_reads_agree",
    "Polycap.Sess.source_inputs_fixed"
   ],
   "note": ""
  },
  {
   "property": "C63",
   "status": "partial",
   "theorems": [
    "Polycap.Sess.photon_outlives_description",
    "Polycap.Sess.photon_outlives_source",
    "Polycap.Sess.result_outlives_source",
    "Polycap.Sess.second_simulation_changes_first_result",
    "Polycap.Sess.double_free",
    "Polycap.Sess.photon_outlives_description_history",
    "Polycap.Sess.result_outlives_source_history",
    "Polycap.Sess.open_area_changes_history"
   ],
   "note": "False of the code: photons and results hold plain copies of the caller's pointers. Proved: the use after free for any reachable state and on complete histories, and that the Open_Area written for a result is the one of the latest simulation of its source. What holds is the legal part, C61."
  },
  {
   "property": "C64",
   "status": "proved",
   "theorems": [
    "Polycap.Py.set_exception_correct",
    "Polycap.Py.error_becomes_exception",
    "Polycap.Py.exceptions_distinct",
    "Polycap.Py.set_exception_no_message_ub"
   ],
   "note": "I/O and OpenMP errors share a class. Every error made by the library has a message; one without would be dereferenced (last theorem)."
  },
  {
   "property": "C65",
   "status": "partial",
   "theorems": [
    "Polycap.Py.profile_array_prefix_partial",
    "Polycap.Py.profile_array_last_byte",
    "Polycap.Py.profile_array_last_wrong"
   ],
   "note": "False of the code for the last value: the number of bytes copied is 8*nid+1 instead of 8*(nid+1), so of the last double only one byte is the profile's. The other values are exact."
  },
  {
   "property": "C66",
   "status": "partial",
   "theorems": [
    "Polycap.Py.contiguous_array_partial",
    "Polycap.Py.strided_array_misread",
    "Polycap.Py.reversed_array_out_of_bounds",
    "Polycap.Py.vector_any_stride"
   ],
   "note": "Arrays that are neighbours in memory; for other strides the code reads other values or outside the array (witnesses). Three-vectors are read element by element and right for every layout."
  },
  {
   "property": "C67",
   "status": "proved",
   "theorems": [
    "Polycap.Py.python_program_correct",
    "Polycap.Py.python_program_memory",
    "Polycap.Py.disciplined_collect_last",
    "Polycap.Py.disciplined_keep_all",
    "Polycap.Py.ignored_profile_crashes"
   ],
   "note": "Over the session machine of C61 (allocations succeed). The ignore argument makes an object without a profile; reading it crashes (last theorem)."
  },
  {
   "property": "C68",
   "status": "partial",
   "theorems": [
    "Polycap.Py.launch_after_collect_crashes",
    "Polycap.Py.launch_after_source_crashes",
    "Polycap.Py.write_after_collect_crashes",
    "Polycap.Py.del_description_crashes"
   ],
   "note": "False of the code: no references are kept. Proved: the crash in every reachable state and on a complete program. What holds is C67."
  },
  {
   "property": "C69",
   "status": "partial",
   "theorems": [
    "Polycap.Py.python_launch_partial",
    "Polycap.Py.python_launch_reported_partial",
    "Polycap.Py.python_launch_junk",
    "Polycap.Py.python_launch_odd_glass"
   ],
   "note": "First theorem: when no error is left behind; second: with the errors the tracing code really leaves behind (an exception then means the launch failed or the photon was turned upstream). Odd weight fractions raise on success (last theorem). Without leak calculation; with it, a photon in the glass gives an uninitialised array (third theorem). In the None case one array is lost."
  },
  {
   "property": "C70",
   "status": "partial",
   "theorems": [
    "Polycap.Py.python_results_partial",
    "Polycap.Py.python_data",
    "Polycap.Py.python_simulation_results",
    "Polycap.Py.results_after_memory_error",
    "Polycap.Py.leaks_after_memory_error"
   ],
   "note": "With enough memory. After a failed allocation the properties give unwritten numbers or crash (last two theorems)."
  },
  {
   "property": "C71",
   "status": "partial",
   "theorems": [
    "Polycap.Py.photon_leaks_partial",
    "Polycap.Py.photon_leaks_stale",
    "Polycap.Py.photon_leaks_memory_error"
   ],
   "note": "One launch and enough memory. After a second launch the leaks of the first are still given; after a failed allocation the next read and the collection crash (witnesses)."
  },
  {
   "property": "C72",
   "status": "proved",
   "theorems": [
    "Polycap.Rng.generators",
    "Polycap.Rng.same_seed",
    "Polycap.Rng.new_is_seeded",
    "Polycap.Rng.new_out_of_memory",
    "Polycap.Rng.new_division_by_zero",
    "Polycap.Rng.new_short_read",
    "Polycap.Rng.new_fallback",
    "Polycap.Rng.draw_after_free"
   ],
   "note": "With successful allocations (failure is undefined behaviour, proved). The generator itself (gsl/easyRNG) is a parameter. Also proved: seeding without /dev/urandom divides by zero when the clock's microseconds are 0."
  },
  {
   "property": "C73",
   "status": "proved",
   "theorems": [
    "Polycap.launch_leaks_ok",
    "Polycap.launch_leaks_shape",
    "Polycap.lk_leaks",
    "Polycap.Get.simulation_leaks"
   ],
   "note": "For photons started in a capillary or at the entrance (all photons of a simulation) with a start direction pointing downstream. For photons put into the glass below the entrance only direction length, count and position are proved (the code applies no threshold there)."
  },
  {
   "property": "C74",
   "status": "partial",
   "theorems": [
    "Polycap.launch_ub_only_partial",
    "Polycap.launch_ub_reflected",
    "Polycap.wallExit_ub_iff",
    "Polycap.launch_leak_rim",
    "Polycap.simulation_leak_ub"
   ],
   "note": "False of the code: pc_intersect reads the profile at index -1 when the line of a leaking photon misses the hexagon at every profile point (launch_leak_rim: a photon at the rim of a tube). Proved: this is the only way, and a photon that enters through the hexagonal front face needs at least one reflection for it."
  },
  {
   "property": "C75",
   "status": "proved",
   "theorems": [
    "Polycap.Py.only_fitting_integers",
    "Polycap.Py.only_fitting_integers_program",
    "Polycap.Py.simulate_overflow",
    "Polycap.Py.simulate_fits",
    "Polycap.Py.description_overflow",
    "Polycap.Py.description_fits"
   ],
   "note": "Two libraries that agree on arguments that fit cannot be told apart by a program."
  },
  {
   "property": "C76",
   "status": "proved",
   "theorems": [
    "Polycap.Obj.photon_new_iff",
    "Polycap.Obj.new_photon_reads",
    "Polycap.Obj.photon_keeps_start",
    "Polycap.Obj.reported_direction",
    "Polycap.Obj.start_direction_changes",
    "Polycap.Obj.null_photon"
   ],
   "note": "The first launch with good arguments replaces the start direction by its unit vector (start_direction_changes). The getters dereference a NULL photon (null_photon)."
  },
  {
   "property": "C77",
   "status": "partial",
   "theorems": [
    "Polycap.reports_when",
    "Polycap.period_least",
    "Polycap.simulation_safe_iff",
    "Polycap.static_distributes",
    "Polycap.static_harmless",
    "Polycap.single_thread_overflow",
    "Polycap.few_photons_division",
    "Polycap.pass_safe_iff",
    "Polycap.simulation_progress_overflow",
    "Polycap.simulation_few_photons"
   ],
   "note": "When reports are printed is exact. False of the code for many photons on one thread (int overflow) and for fewer photons than threads with an uneven distribution (division by zero); simulation_safe_iff is the exact condition, static_harmless the usual case."
  },
  {
   "property": "C78",
   "status": "partial",
   "theorems": [
    "Polycap.paraboloidal_ends_iff",
    "Polycap.paraboloidal_profile_exact",
    "Polycap.paraboloidal_negative_radius",
    "Polycap.paraboloidal_ends_false"
   ],
   "note": "False of the code: three coefficients are fitted to four points. paraboloidal_ends_iff says exactly when the ends are met; for focal distances of at least the length every radius is given in closed form and the capillary fits exactly if it fits at both ends."
  },
  {
   "property": "C79",
   "status": "partial",
   "theorems": [
    "Polycap.launchE_value",
    "Polycap.launch_keeps_first_error",
    "Polycap.launch_refusal_reports",
    "Polycap.launch_outside_reports",
    "Polycap.launch_composition_reports",
    "Polycap.launch_reports_partial",
    "Polycap.mono_corner_lost",
    "Polycap.corner_lost",
    "Polycap.launch_success_with_error"
   ],
   "note": "The last clause is false of the code: a photon in the opening of a monocapillary but outside the hexagon inscribed in its outer circle is lost with -1 and no error (mono_corner_lost), and a launch can return 1 with an error set (launch_success_with_error). launch_reports_partial names every exception for launches without leak calculation."
  },
  {
   "property": "C80",
   "status": "partial",
   "theorems": [
    "Polycap.launch_clear_transmitted_partial",
    "Polycap.mono_clear_transmitted_partial",
    "Polycap.axial_transmitted"
   ],
   "note": "Excluded: photons parallel to a wall generator, for which the code gives NaN (C19, C24), and lines that leave the hexagon used for the grid check of monocapillaries (C79 mono_corner_lost)."
  },
  {
   "property": "C81",
   "status": "partial",
   "theorems": [
    "Polycap.LMem.launch_memory",
    "Polycap.LMem.launch_then_free",
    "Polycap.LMem.launch_leaves_nothing",
    "Polycap.LMem.launch_refused_memory",
    "Polycap.LMem.second_launch_leaks",
    "Polycap.LMem.launch_oom_frees_photon",
    "Polycap.LMem.launch_oom_use_after_free",
    "Polycap.LMem.launch_oom_weights"
   ],
   "note": "Proved in full for photons without earlier leak events and enough memory (launch_leaves_nothing; launch_memory shows the heap computation agrees with the value model for every photon). The rest is false of the code: a second launch loses the structs of the earlier leaks (second_launch_leaks), and failing allocations end in a double free, a use after free or a write to NULL (launch_oom_*)."
  },
  {
   "property": "C82",
   "status": "partial",
   "theorems": [
    "Polycap.launch_leak_places",
    "Polycap.leak_inside_optic",
    "Polycap.attempt_leak_places",
    "Polycap.Get.simulation_leak_places"
   ],
   "note": "Everything except that internal leaks are recorded on the exit plane, which is false of the code: light entering a bore in the last profile segment is recorded there, inside the optic (leak_inside_optic)."
  },
  {
   "property": "C83",
   "status": "partial",
   "theorems": [
    "Polycap.SMem.sim_memory",
    "Polycap.SMem.sim_memory_complete",
    "Polycap.SMem.sim_leaves_nothing",
    "Polycap.SMem.sim_ub_iff",
    "Polycap.SMem.sim_separate",
    "Polycap.SMem.sim_heap_safe",
    "Polycap.SMem.z_sim_memory",
    "Polycap.SMem.thread_oom_weights_ub",
    "Polycap.SMem.thread_oom_rng_ub",
    "Polycap.SMem.work_oom_photon_ub",
    "Polycap.SMem.work_oom_launch_ub",
    "Polycap.SMem.work_oom_constants_ub"
   ],
   "note": "Proved in full while allocations succeed; a heap-level step is undefined exactly where the value model says so (sim_ub_iff), never without leak calculation on a valid setup (sim_heap_safe). The last sentence is false of the code: a failing allocation of a thread's weights, generator or photon, or inside the launch, is undefined behaviour (thread_oom_*, work_oom_*)."
  },
  {
   "property": "C84",
   "status": "partial",
   "theorems": [
    "Polycap.launch_guarded_partial",
    "Polycap.first_stretch",
    "Polycap.wall_passed"
   ],
   "note": "Proved for every flight that is in the opening 1e-5 cm after its start, except that it may leave the opening at one of four exceptional places (Slip: parallel to a generator of the wall, less than 1e-5 cm behind a profile point, perpendicular to the capillary axis, tangential for the right circular cone the code takes for the wall). The rest is false of the code: walls within 1e-5 cm of the start or of the last reflection are not looked at, and a photon entering close to the wall is transmitted through the glass with weight 1 (wall_passed)."
  },
  {
   "property": "C85",
   "status": "partial",
   "theorems": [
    "Polycap.launch_leak_invisible_partial",
    "Polycap.WideTube.launch_leak_visible"
   ],
   "note": "Proved for every launch that starts in a capillary and does not return -1 with leak calculation. The rest is false of the code: a photon that meets the wall exactly at the exit plane is transmitted without leak calculation and lost with it (launch_leak_visible); a launch near the rim reads out of bounds only with leak calculation (C74)."
  },
  {
   "property": "C86",
   "status": "proved",
   "theorems": [
    "Polycap.launch_energies_independent",
    "Polycap.launch_energies_order",
    "Polycap.RoughTube.absorbed_alone"
   ],
   "note": "Without leak calculation, over the reals, for launches that start in a capillary. A launch that ends with -1 needs glass with a refractive index of positive real part at the energies (otherwise the reflectivity of one energy may be refused, which ends the launch for all of them)."
  },
  {
   "property": "C87",
   "status": "partial",
   "theorems": [
    "Polycap.Tube.launch_kept_partial",
    "Polycap.Tube.launch_discards_inside",
    "Polycap.Tube.launch_discards_wide",
    "Polycap.launch_reports_partial"
   ],
   "note": "False of the code: the check prolongs the photon's line backwards to the profile point it has passed last, which throws away a photon on its way out through the middle of a tube (launch_discards_inside), and for up to three capillaries it compares the square of a distance with a radius (launch_discards_wide). Proved: without leak calculation a photon whose line from the profile point passed last to the exit is inside the optic is not silently thrown away."
  },
  {
   "property": "C88",
   "status": "partial",
   "theorems": [
    "Polycap.Term.launch_terminates",
    "Polycap.Term.launch_terminates_always",
    "Polycap.Term.launch_hangs",
    "Polycap.Term.closed_accepted",
    "Polycap.Term.closed_hangs"
   ],
   "note": "Proved over the reals without leak calculation for everything, and with leak calculation for optics with positive capillary radii and photons flying downstream. False of the code for capillaries of radius 0, which the library accepts: the walk through the glass proceeds by a tenth of the radius (launch_hangs, closed_hangs). Photons flying exactly sideways with leak calculation are not covered."
  },
  {
   "property": "C89",
   "status": "partial",
   "theorems": [
    "Polycap.Acc.mono_launch_accounts",
    "Polycap.Acc.launch_accounts_partial",
    "Polycap.Acc.Accounted.balance",
    "Polycap.Acc.Course.balance",
    "Polycap.Acc.mono_noneBeyond",
    "Polycap.Acc.poly_forgets",
    "Polycap.front_axial_forgotten"
   ],
   "note": "Proved over the reals for every launch in a monocapillary; for polycapillaries under the hypothesis that light meets bores only above the exit plane. That hypothesis is needed: the bore is looked for in steps of a tenth of its radius, a step may end below the exit plane, and then the light is neither recorded nor followed (poly_forgets). A launch that fails (-1), and one into the glass of the entrance window whose reflection fails (always reported as 2), may lose light; the theorem says then nothing at all is recorded. Over the reals 0/0 is 0; with NaN (front_axial_forgotten) light coming down on the entrance glass exactly along the axis leaves no record at all."
  },
  {
   "property": "C90",
   "status": "partial",
   "theorems": [
    "Polycap.Polar.launch_electric_vector_partial",
    "Polycap.Polar.electric_vector_lost",
    "Polycap.Polar.turned_abs",
    "Polycap.Polar.turned_grazing"
   ],
   "note": "False of the code: the \"new\" electric vector computed at a reflection is the old one times a factor common to its three components, so that after normalisation it is the old one without the signs of its components - not turned with the wall, and in general not orthogonal to the direction of flight (electric_vector_lost: two reflections, back in the old direction). Proved over the reals instead, for every launch, with and without leak calculation: exactly what the caller finds - the unchanged vector without reflections, the normalised vector without signs (or nothing, after a perpendicular reflection: 0/0 in C) after any number of them; at oblique incidence the factor does not vanish (turned_grazing)."
  },
  {
   "property": "C91",
   "status": "proved",
   "theorems": [
    "Polycap.Route.launch_goes_way",
    "Polycap.Route.loop_way",
    "Polycap.Route.trace_leg",
    "Polycap.Route.search_leg",
    "Polycap.Route.search_out"
   ],
   "note": "Over the reals. `Way` (Leg, Clear, weaker, mirror) is the specification; the tolerances of the code are part of it (10^-5 between reflections, 10^-10 from a profile point, grazing more than 10^-19) and so is what it does with the electric vector (C90). C92 shows that straight capillaries have such ways."
  },
  {
   "property": "C92",
   "status": "proved",
   "theorems": [
    "Polycap.Bore.launch_straight",
    "Polycap.Bore.launch_straight_at",
    "Polycap.Bore.ways",
    "Polycap.Bore.bounce_state"
   ],
   "note": "Over the reals, without leak calculation. The polarisation share of each reflection is explicit (`share`), the same for all energies and in [0,1] (share_unit). The optic must leave room around the capillary for the line prolonged to the profile point before, as the code tests it there (C87)."
  },
  {
   "property": "C93",
   "status": "partial",
   "theorems": [
    "Polycap.PolarImage.recorded_polarisation_partial",
    "Polycap.PolarImage.exit_polarisation_is_start",
    "Polycap.PolarImage.steep_polarisation"
   ],
   "note": "Proved over the reals for the start record (photons within 30 degrees of the axis in x and y, which all realistic ones are) and for what the exit record is in terms of the start record. False of the code: the exit record never depends on the reflections (exit_polarisation_is_start, a consequence of C90), and a steep photon is recorded along no axis (steep_polarisation)."
  },
  {
   "property": "C94",
   "status": "partial",
   "theorems": [
    "Polycap.Mirror.launch_mirror_partial",
    "Polycap.Mirror.mirror_images_differ",
    "Polycap.Mirror.trace_flip"
   ],
   "note": "Proved over the reals, without leak calculation, for photons polarised along one of the axes (for every outcome, with no tolerance). False of the code for other polarisations: as a reflection drops the signs of the components of the electric vector (C90), a photon and its mirror image come out with different weights (mirror_images_differ)."
  },
  {
   "property": "C95",
   "status": "partial",
   "theorems": [
    "Polycap.run_leak_invisible_partial",
    "Polycap.simulation_leak_invisible_partial",
    "Polycap.reach_same",
    "Polycap.LeakSim.leak_example",
    "Polycap.LeakSim.leaks_lose",
    "Polycap.LeakSim.simulation_leak_visible"
   ],
   "note": "Proved for every interleaving by a forward simulation (a step with leaks is a step without, or a stutter), for runs in which no photon is lost (return value -1) only because of the leak calculation. The rest is false of the code: simulation_leak_visible gives a source, an optic and random numbers for which the two calls report different photons."
  },
  {
   "property": "C96",
   "status": "partial",
   "theorems": [
    "Polycap.FMem.source_file_result",
    "Polycap.FMem.source_file_accepted",
    "Polycap.FMem.source_file_refused_partial",
    "Polycap.FMem.source_file_left_open",
    "Polycap.FMem.source_file_names_lost",
    "Polycap.PFile.files_ok",
    "Polycap.PFile.tables_complete",
    "Polycap.PFile.source_reads_tables",
    "Polycap.PFile.source_and_profile_files_accepted",
    "Polycap.PFile.source_and_profile_files_refused_partial"
   ],
   "note": "False of the code for refusals: the FILE object stays open unless the file was read up to and including a usable profile (source_file_left_open, exact), and file names are lost when a profile read from files is refused. The accepted half holds in full. The assumption about the reader of profile files (FilesOk) is itself proved (files_ok) for all file contents that start with a number of points (otherwise C55: undefined behaviour)."
  },
  {
   "property": "C97",
   "status": "partial",
   "theorems": [
    "Polycap.LMem.launch_out_of_memory_partial",
    "Polycap.LMem.temp_photon_memory_partial"
   ],
   "note": "Complete for launches without leak calculation of photons without earlier leaks, for every allocator: exact result and memory after each refused request. The property is false of the code for five of the requests: a refused array of energies or weights releases the caller's photon, a refused array of coefficients uses the released photon, a refused array for the returned weights is written to. With leak calculation only the temporary photon is covered (temp_photon_memory_partial); a refused enlargement of the leak arrays loses the old array (realloc result stored over the pointer)."
  },
  {
   "property": "C98",
   "status": "proved",
   "theorems": [
    "Polycap.Unif.polycapillary_illumination_law",
    "Polycap.Unif.capillary_illumination_law",
    "Polycap.Unif.divergent_source_law",
    "Polycap.Unif.capillary_illumination_miss"
   ],
   "note": "Exact law over the stream of all numbers a perfect generator returns (infinite product measure). The literal M_PI is below pi, so the origin is not exactly uniform but within 10^-19 (relative to the source size times its aspect ratio) of an exactly uniform point drawn from the same numbers. Finding: for a single capillary the start is uniform over the square, so a photon misses the bore with probability 1 - pi/4."
  },
  {
   "property": "C99",
   "status": "proved",
   "theorems": [
    "Polycap.smoother_walls_transmit_more"
   ],
   "note": "Over the reals, without leak calculation. For an absorbed photon (return value 0) nothing is claimed: the smoother optic may carry it further and leave it with less weight in the end."
  },
  {
   "property": "C100",
   "status": "proved",
   "theorems": [
    "Polycap.Mean.efficiency_converges",
    "Polycap.Mean.simulations_agree",
    "Polycap.Mean.beam_limit"
   ],
   "note": "Strong law of large numbers over the infinite product of uniform measures; whether a photon counts and what it delivers are proved to be measurable functions of the numbers drawn (Piece.lean follows the whole tracer), and a photon is settled by the numbers it uses, also where the search for a start point uses a random number of them. Exact reals, perfect generators (the Mersenne twister is external code). The statement is about simulations that complete: completion itself is C52/C88, and C77 (the progress print) makes very large photon numbers undefined in the C code. Photons that are turned away without being counted (C36) are not in the denominator."
  },
  {
   "property": "C101",
   "status": "partial",
   "theorems": [
    "Polycap.Mean.open_area_limit",
    "Polycap.Mean.simulated_open_area",
    "Polycap.Mean.openFraction_hex",
    "Polycap.Mean.openFraction_description",
    "Polycap.Mean.openFraction_mono",
    "Polycap.Mean.simulated_mono_efficiency"
   ],
   "note": "Proved: open area and efficiencies are bounded in the limit by the open share of the illuminated face, with equality for the open area if every photon on the face is counted (photons that leave through a wall or miss the exit window are not, C36). False as stated against the description: the tracer continues the stacking up to the rim, where half bores of a further shell appear, so the face lets in 3(N+1)^2/(3N(N+1)+1) times the open area of the description (12/7 for seven capillaries), proved to 10^-15 for every N. For a single capillary the illumination fills the square around the bore (C98), so even a lossless capillary is reported with an efficiency of at most pi/4. Exact reals, perfect generators, bores separated by glass."
  },
  {
   "property": "C102",
   "status": "proved",
   "theorems": [
    "Polycap.deflection_costs",
    "Polycap.Total.total_reflection",
    "Polycap.Total.straight_total",
    "Polycap.Total.tot_total",
    "Polycap.Total.tot_above",
    "Polycap.Total.tot_absorbing",
    "Polycap.Total.tot_s",
    "Polycap.Total.tot_s_anti",
    "Polycap.Total.tot_grazing"
   ],
   "note": "Over the reals, without leak calculation. deflection_costs is about every launch that returns 1 (over the reals the code sees no reflection at angle zero exactly, as its \u03c0 is below \u03c0); total_reflection is about photons whose way (C91: no hits closer than the search tolerances, not grazing below 1e-19) gets out; straight_total discharges that for straight capillaries, where the photon is transmitted with weights exactly 1. The critical angle is Snell's: cosine of the grazing angle equal to the real part of the refractive index. Holds for both polarisations although the code's parallel coefficient is not Fresnel's (C59)."
  },
  {
   "property": "C103",
   "status": "proved",
   "theorems": [
    "Polycap.Mirror.ways_are_geometric",
    "Polycap.Mirror.way_of_launch",
    "Polycap.Mirror.capillary_flip",
    "Polycap.Mirror.polycapillary_mirror_partial"
   ],
   "note": "Over the reals, for photons that start in a bore and whose launches both return 1. The weights (last sentence) are proved without leak calculation (polycapillary_mirror_partial: for every outcome, not only transmission); for oblique polarisation they are not symmetric (C94). Capillaries must leave 1e-18 of their spacing free at the start, as the 20-digit constant for cos 30 degrees lets the code assign a point of two touching bores to either."
  },
  {
   "property": "C104",
   "status": "proved",
   "theorems": [
    "Polycap.angular_momentum",
    "Polycap.meridional_stays",
    "Polycap.skew_through_window",
    "Polycap.Skew.normal_radial"
   ],
   "note": "Over the reals, for launches that trace the photon in a bore (they return its weights), whatever code they return. Relies on the normals of the code only through their lateral part, which is radial for any taper."
  },
  {
   "property": "C105",
   "status": "partial",
   "theorems": [
    "Polycap.taper_steepness",
    "Polycap.widening_silent",
    "Polycap.cone_unfolds",
    "Polycap.cone_acceptance",
    "Polycap.Taper.Path.cone"
   ],
   "note": "Over the reals, for launches that trace the photon in a bore, whatever code they return. The cone laws exclude photons that at some stage fly parallel to a generator of the cone, where the code divides by zero (C19); the steepness laws need no exception."
  },
  {
   "property": "C106",
   "status": "proved",
   "theorems": [
    "Polycap.Rotation.capillary_is_round",
    "Polycap.Rotation.outside_is_round",
    "Polycap.Rotation.hexagon_discards",
    "Polycap.Rotation.tube_not_round"
   ],
   "note": "Over the reals, for photons that start in the bore and whose launches both return 1. Whether they get through is not the same for all directions: the code also compares positions in a single capillary with a hexagon (hexagon_discards), so that a photon that flies straight through a wide bore is discarded when turned by a quarter (tube_not_round). Weights are not covered: they depend on the direction of the polarisation (C94)."
  },
  {
   "property": "C107",
   "status": "proved",
   "theorems": [
    "Polycap.Mean.image_converges",
    "Polycap.Mean.image_sums",
    "Polycap.Mean.beam_image"
   ],
   "note": "Strong law of large numbers as in C100, for each measurable set of rays and each energy; the reported records are read through the results of the call (rayAt), slot by slot. Exact reals, perfect generators, simulations that complete (C52/C88). The electric vectors of the images are not part of a ray: they are rounded and never show reflections (C93)."
  },
  {
   "property": "C108",
   "status": "proved",
   "theorems": [
    "Polycap.Mean.energies_order_simulated",
    "Polycap.Mean.company_photon",
    "Polycap.Mean.company_limit",
    "Polycap.Mean.company_simulated"
   ],
   "note": "Without leak calculation, for glass that refracts at the energies (C86 for single photons). Company can change a result at all only because a photon ends when all its weights are below 1e-4 (C86), and because a transmitted photon outside the exit window is not counted among the generated ones (C36), hence c <= c'. Exact reals; perfect generators for the limits; simulations that complete (C52/C88)."
  },
  {
   "property": "C109",
   "status": "proved",
   "theorems": [
    "Polycap.Mean.smoother_walls_simulated",
    "Polycap.Mean.smooth_limit",
    "Polycap.Mean.smooth_photon",
    "Polycap.Rough.launch_smooth"
   ],
   "note": "Without leak calculation, for glass that refracts at the energies. Exact reals; perfect generators; simulations that complete (C52/C88). The two simulations may use the same or different random numbers."
  },
  {
   "property": "C110",
   "status": "proved",
   "theorems": [
    "Polycap.More.same_photons",
    "Polycap.More.started_grows",
    "Polycap.More.m_completes"
   ],
   "note": "Any kind of numbers, with or without leak calculation. m_completes: simulations of every number of photons up to 21474837 with one thread that do complete, from concrete streams (so the hypotheses of the other two are met)."
  },
  {
   "property": "C111",
   "status": "proved",
   "theorems": [
    "Polycap.Pool.pooled",
    "Polycap.Pool.pooled_leaks",
    "Polycap.Pool.pooled_efficiencies"
   ],
   "note": "SingleThread says that a report is that of a completed one-thread simulation of the source and optic from the given stream and number of photons. Counts, photons and leak events (records and weights, in some order) for any kind of numbers (floating point included); open area and efficiencies in exact reals."
  },
  {
   "property": "C112",
   "status": "proved",
   "theorems": [
    "Polycap.Replay.reproduced",
    "Polycap.Replay.exits_slots"
   ],
   "note": "userLoop is written with the two API functions only. simCode 1: returned 1 and inside the exit window at the end of the optic (C36); leak events are those of photons transmitted, not transmitted or on the glass. Any kind of numbers, leak calculation on or off."
  },
  {
   "property": "C113",
   "status": "proved",
   "theorems": [
    "Polycap.Light.same_light",
    "Polycap.Light.same_light_simulated",
    "Polycap.Light.same_entrance",
    "Polycap.Light.loop_other",
    "Polycap.Light.photon_same"
   ],
   "note": "SameFace names what of the optic the source looks at. The launched photon keeps place and electric vector of its start, and its direction normalised (launch_start). Exact reals."
  }
 ]
}