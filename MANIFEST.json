{
 "claims": [
  {
   "property": "C01",
   "status": "proved",
   "theorems": [
    "Dt.C01_append_keeps_order"
   ],
   "note": ""
  },
  {
   "property": "C02",
   "status": "proved",
   "theorems": [
    "Dt.C02_push_index_stable"
   ],
   "note": ""
  },
  {
   "property": "C03",
   "status": "proved",
   "theorems": [
    "Dt.C03_setitem_frame"
   ],
   "note": ""
  },
  {
   "property": "C04",
   "status": "proved",
   "theorems": [
    "Dt.C04_read_loop"
   ],
   "note": ""
  },
  {
   "property": "C05",
   "status": "proved",
   "theorems": [
    "Dt.C05_count_le_capacity",
    "Dt.C05_growth_minimal"
   ],
   "note": ""
  },
  {
   "property": "C06",
   "status": "partial",
   "theorems": [
    "Dt.C06_count",
    "Dt.C06_read_back_partial",
    "Dt.C06_zero_ghosts",
    "Dt.C06_false_at_zero"
   ],
   "note": "Holds for 1 <= n <= capacity; false for n = 0 (C06_zero_ghosts, C06_false_at_zero)."
  },
  {
   "property": "C07",
   "status": "partial",
   "theorems": [
    "Dt.C07_history_exact",
    "Dt.C07_reads_after_pushes_partial",
    "Dt.C07_false_push_after_read",
    "Dt.C07_pushes_after_read"
   ],
   "note": "False as stated; C07_history_exact says exactly which appends raise."
  },
  {
   "property": "C08",
   "status": "proved",
   "theorems": [
    "Dt.C08_inout_swap",
    "Dt.C08_inout_empty"
   ],
   "note": ""
  },
  {
   "property": "C09",
   "status": "proved",
   "theorems": [
    "Dt.C09_indices_identify_particle"
   ],
   "note": ""
  },
  {
   "property": "C10",
   "status": "partial",
   "theorems": [
    "Dt.C10_same_history_partial",
    "Dt.C10_overloads_partial",
    "Dt.C10_false_zero",
    "Dt.C10_false_zero_length_1",
    "Dt.C10_false_array",
    "Dt.C10_false_push_after_read",
    "Dt.C10_false_out_of_bounds"
   ],
   "note": "Proved for histories of every method with the argument restrictions of Method.Safe. The C10_false_ theorems show that outside of them the containers differ: set_number_of_items(0), whole-segment arrays, list overload of push_back after a read loop."
  },
  {
   "property": "C11",
   "status": "proved",
   "theorems": [
    "Dt.C11_pass_refines_list",
    "Dt.C11_survivors"
   ],
   "note": ""
  },
  {
   "property": "C12",
   "status": "proved",
   "theorems": [
    "Dt.C12_in_array_preserved",
    "Dt.C12_raises_iff_particle_raises"
   ],
   "note": ""
  },
  {
   "property": "C13",
   "status": "partial",
   "theorems": [
    "Dt.C13_cpp_uniform",
    "Dt.C13_false_cpp",
    "Dt.C13_uniform_count_exact",
    "Dt.C13_uniform_partial",
    "Dt.C13_false"
   ],
   "note": "False as stated; C13_uniform_count_exact gives the count for every population, the partial theorem the case where it is right. The compiled mover keeps the right count (C13_cpp_uniform) but also keeps deleted particles (C13_false_cpp)."
  },
  {
   "property": "C14",
   "status": "partial",
   "theorems": [
    "Dt.C14_count_zero_partial",
    "Dt.C14_ghosts",
    "Dt.C14_false"
   ],
   "note": "Count and skipping hold; loops and additions after total loss fail (C14_ghosts for every case, C14_false concretely)."
  },
  {
   "property": "C15",
   "status": "partial",
   "theorems": [
    "Dt.C15_push_after_pass_exact",
    "Dt.C15_push_after_pass_partial",
    "Dt.C15_false"
   ],
   "note": "False as stated; C15_push_after_pass_exact gives the exact condition under which additions raise."
  },
  {
   "property": "C16",
   "status": "proved",
   "theorems": [
    "Dt.C16_steps_compose"
   ],
   "note": ""
  },
  {
   "property": "C17",
   "status": "proved",
   "theorems": [
    "Dt.C17_pass_follows",
    "Dt.C17_steps_follow",
    "Dt.C17_create_follows"
   ],
   "note": ""
  },
  {
   "property": "C18",
   "status": "proved",
   "theorems": [
    "Dt.C18_append_only",
    "Dt.C18_record_datum"
   ],
   "note": ""
  },
  {
   "property": "C19",
   "status": "partial",
   "theorems": [
    "Dt.C19_record_all_once_partial",
    "Dt.C19_same_step",
    "Dt.C19_false_charged",
    "Dt.C19_false_neutral"
   ],
   "note": "Holds when every live trajectory has room; false on full buffers: charged (second call records again), neutral (IndexError)."
  },
  {
   "property": "C20",
   "status": "proved",
   "theorems": [
    "Dt.C20_schedule_fits",
    "Dt.C20_errors"
   ],
   "note": ""
  },
  {
   "property": "C21",
   "status": "proved",
   "theorems": [
    "Dt.C21_final_point"
   ],
   "note": ""
  },
  {
   "property": "C22",
   "status": "proved",
   "theorems": [
    "Dt.C22_times_charged",
    "Dt.C22_times_neutral",
    "Dt.C22_time_is_exact"
   ],
   "note": ""
  },
  {
   "property": "C23",
   "status": "proved",
   "theorems": [
    "Dt.C23_first_facet",
    "Dt.C23_fraction_range"
   ],
   "note": ""
  },
  {
   "property": "C24",
   "status": "proved",
   "theorems": [
    "Dt.C24_no_facet_iff"
   ],
   "note": ""
  },
  {
   "property": "C25",
   "status": "proved",
   "theorems": [
    "Dt.C25_cell_label"
   ],
   "note": ""
  },
  {
   "property": "C26",
   "status": "proved",
   "theorems": [
    "Dt.C26_each_cell_once",
    "Dt.C26_limit_only_degenerate",
    "Dt.C26_line_no_error",
    "Dt.C26_crossings",
    "Dt.C26_limit",
    "Dt.C26_limit_monotone",
    "Dt.C26_none"
   ],
   "note": "Also: each crossing is of a cell not left before (C26_each_cell_once), so with a limit above the number of cells the limit is only hit by paths crossing at one point repeatedly (C26_limit_only_degenerate), and on a 1D absorbing mesh never (C26_line_no_error). C102 removes the exception for paths through vertices in one and two dimensions."
  },
  {
   "property": "C27",
   "status": "proved",
   "theorems": [
    "Dt.C27_free_motion",
    "Dt.C27_free_motion_neutral",
    "Dt.C27_accel_only"
   ],
   "note": ""
  },
  {
   "property": "C28",
   "status": "partial",
   "theorems": [
    "Dt.C28_false_interior_reflection",
    "Dt.C28_false_passive_boundary",
    "Dt.C28_no_error",
    "Dt.C28_no_error_neutral",
    "Dt.C28_steps"
   ],
   "note": "Proved for callbacks that delete or turn back at the boundary and do not move particles at interior facets; false for a reflecting callback on an interior facet and for a passive callback on the boundary (C28_false_*)."
  },
  {
   "property": "C29",
   "status": "proved",
   "theorems": [
    "Dt.C29_specular",
    "Dt.C29_involution",
    "Dt.C29_inner_side"
   ],
   "note": ""
  },
  {
   "property": "C30",
   "status": "proved",
   "theorems": [
    "Dt.C30_tables",
    "Dt.C30_mutual",
    "Dt.C30_interval"
   ],
   "note": ""
  },
  {
   "property": "C31",
   "status": "partial",
   "theorems": [
    "Dt.C31_current_dx",
    "Dt.C31_false_neutral",
    "Dt.C31_neutral_stale"
   ],
   "note": "Holds for the movers of charged species (C31_current_dx); false for advance_neutral_species (C31_false_neutral), where the callback sees the old vector (C31_neutral_stale)."
  },
  {
   "property": "C32",
   "status": "partial",
   "theorems": [
    "Dt.C32_start_point",
    "Dt.C32_false_neutral_xy"
   ],
   "note": "Holds for four of the five C++ mesh movers; false for the two-dimensional mover of neutral species (C32_false_neutral_xy says what it passes)."
  },
  {
   "property": "C33",
   "status": "proved",
   "theorems": [
    "Dt.Fld.C33_deposit_exact",
    "Dt.Fld.C33_conserves_weight",
    "Dt.Fld.C33_order_independent",
    "Dt.Fld.C33_additive"
   ],
   "note": ""
  },
  {
   "property": "C34",
   "status": "proved",
   "theorems": [
    "Dt.Fld.C34_cell_exact",
    "Dt.Fld.C34_integrates"
   ],
   "note": ""
  },
  {
   "property": "C35",
   "status": "partial",
   "theorems": [
    "Dt.C35_applied_field_partial",
    "Dt.C35_false_disabled",
    "Dt.C35_false_stale_slot"
   ],
   "note": "Proved for every content of the scratch arrays, every number of segments and every random generator, as a refinement to a pass over the list of particles. Excluded and proved false: solved field given but disabled with an external field enabled (AttributeError), and external field undefined at a slot that holds no particle (the source passes the whole segment)."
  },
  {
   "property": "C36",
   "status": "partial",
   "theorems": [
    "Dt.Sources.C36_unique_ids_partial",
    "Dt.Sources.C36_false_listed",
    "Dt.Sources.C36_false_wrap"
   ],
   "note": "Proved for every history in which listed particles take their identities from the counter and fewer than 2^31 are drawn; both exceptions are proved possible (C36_false_listed, C36_false_wrap)."
  },
  {
   "property": "C37",
   "status": "partial",
   "theorems": [
    "Dt.Sources.C37_fill_partial",
    "Dt.Sources.C37_returns",
    "Dt.Sources.C37_false_full",
    "Dt.Sources.C37_other_species"
   ],
   "note": "Proved whenever the call returns, and that it returns on a storage accepting new particles if every rejection loop ends; the random generator is arbitrary. AssertionError on a full, previously read storage is proved (C37_false_full)."
  },
  {
   "property": "C38",
   "status": "proved",
   "theorems": [
    "Dt.Sources.C38_schedule",
    "Dt.Sources.C38_interval_zero"
   ],
   "note": "All n, all sources with non-zero interval; interval 0 raises ZeroDivisionError (C38_interval_zero)."
  },
  {
   "property": "C39",
   "status": "partial",
   "theorems": [
    "Dt.Sources.C39_listed_partial",
    "Dt.Sources.C39_false_full"
   ],
   "note": "Proved for storages that accept new particles and long enough lists; short list gives IndexError; a full storage that has been read gives AssertionError (C39_false_full)."
  },
  {
   "property": "C40",
   "status": "partial",
   "theorems": [
    "Dt.C40_most_specific",
    "Dt.C40_independent",
    "Dt.C40_cpp_agrees",
    "Dt.C40_false_missing"
   ],
   "note": "Selection proved; 'construction fails if none exists' holds in C++ only: Python stores None and fails at the crossing (C40_false_missing)."
  },
  {
   "property": "C41",
   "status": "proved",
   "theorems": [
    "Dt.C41_file_holds_particles"
   ],
   "note": ""
  },
  {
   "property": "C42",
   "status": "proved",
   "theorems": [
    "Dt.C42_groups",
    "Dt.C42_one_group_per_step"
   ],
   "note": ""
  },
  {
   "property": "C43",
   "status": "proved",
   "theorems": [
    "Dt.C43_species_tables",
    "Dt.C43_zero_mass"
   ],
   "note": ""
  },
  {
   "property": "C44",
   "status": "partial",
   "theorems": [
    "Dt.C44_number_is_sum",
    "Dt.C44_KE_is_sum",
    "Dt.C44_additive",
    "Dt.C44_total_count",
    "Dt.C44_false_after_loss",
    "Dt.C44_number_of_visited_partial"
   ],
   "note": "Proved for every reachable container; after the loss of all particles the sums run over stale records (C44_false_after_loss; C44_number_of_visited_partial gives the value there)."
  },
  {
   "property": "C45",
   "status": "partial",
   "theorems": [
    "Dt.C45_history_fits",
    "Dt.C45_false_max_points"
   ],
   "note": "Proved when max_points is None; with max_points the constructor raises NameError (C45_false_max_points)."
  },
  {
   "property": "C46",
   "status": "partial",
   "theorems": [
    "Dt.C46_rectangular",
    "Dt.C46_whole_mesh",
    "Dt.C46_spherical_1D_partial",
    "Dt.C46_false_sphere"
   ],
   "note": "Rectangular regions and the whole mesh are proved. Spherical regions test only the first coordinate: exact in one dimension (C46_spherical_1D_partial), false in two (C46_false_sphere)."
  },
  {
   "property": "C47",
   "status": "partial",
   "theorems": [
    "Dt.Fld.C47_solves_exact",
    "Dt.Fld.C47_once_partial",
    "Dt.Fld.C47_false_compounding",
    "Dt.Fld.C47_no_charge"
   ],
   "note": "C47_solves_exact gives the right-hand side for every history of solves; the factor is applied once only if the charge is re-assembled in between (C47_once_partial); false otherwise (C47_false_compounding)."
  },
  {
   "property": "C48",
   "status": "partial",
   "theorems": [
    "Dt.Fld.C48_multiply_exact",
    "Dt.Fld.C48_multiply_once_partial",
    "Dt.Fld.C48_multiply_all",
    "Dt.Fld.C48_false_shared"
   ],
   "note": "C48_multiply_exact: each DOF is multiplied once per attached cell of the domain. Once only if the DOF is attached to one cell (partial); false for shared DOFs."
  },
  {
   "property": "C49",
   "status": "proved",
   "theorems": [
    "Dt.C49_radial_mesh",
    "Dt.C49_in_range"
   ],
   "note": "For every power function that is increasing with 0 to 0 and 1 to 1; this covers natural exponents over any ordered field and positive real exponents (powLike_nat, powLike_real)."
  },
  {
   "property": "C50",
   "status": "proved",
   "theorems": [
    "Dt.C50_volumes",
    "Dt.C50_unknown_system"
   ],
   "note": ""
  },
  {
   "property": "C51",
   "status": "partial",
   "theorems": [
    "Dt.Fld.C51_two_species_exact",
    "Dt.Fld.C51_false_two_species"
   ],
   "note": "False as stated (C51_false_two_species); C51_two_species_exact gives what the field holds: earlier species are divided by the volume again."
  },
  {
   "property": "C52",
   "status": "proved",
   "theorems": [
    "Dt.Fld.C52_set_on_subdomain"
   ],
   "note": ""
  },
  {
   "property": "C53",
   "status": "proved",
   "theorems": [
    "Dt.Fld.C53_total_charge",
    "Dt.Fld.C53_charge_density"
   ],
   "note": ""
  },
  {
   "property": "C54",
   "status": "partial",
   "theorems": [
    "Dt.C54_closes_partial",
    "Dt.C54_false_repeated_step"
   ],
   "note": "C54_closes_partial: closed exactly if the step was not yet written; false otherwise (C54_false_repeated_step), e.g. at the end of a run whose last step was written in the loop."
  },
  {
   "property": "C55",
   "status": "proved",
   "theorems": [
    "Dt.C55_cell_indices"
   ],
   "note": ""
  },
  {
   "property": "C56",
   "status": "partial",
   "theorems": [
    "Dt.C56_false_duplicates",
    "Dt.C56_duplicates_kept_partial"
   ],
   "note": "False: duplicates are accepted and kept in the lists."
  },
  {
   "property": "C57",
   "status": "partial",
   "theorems": [
    "Dt.C57_false_incomplete_group",
    "Dt.C57_old_groups_kept_partial",
    "Dt.C57_check_exact",
    "Dt.C57_exact",
    "Dt.C57_accepted_fails"
   ],
   "note": "C57_check_exact: the test of the attributes accepts a list exactly if every attribute exists.  C57_exact: a write at a new step succeeds exactly if in addition all are numbers and none is listed twice.  False: an attribute listed twice passes the test, then leaves an incomplete group and blocks all later writes (C57_false_incomplete_group, C57_accepted_fails); earlier groups are always kept (C57_old_groups_kept_partial)."
  },
  {
   "property": "C58",
   "status": "partial",
   "theorems": [
    "Dt.C58_false_reopened",
    "Dt.C58_reopened_partial"
   ],
   "note": "False if the step equals the last one written to the earlier file; proved otherwise."
  },
  {
   "property": "C59",
   "status": "partial",
   "theorems": [
    "Dt.C59_number_partial",
    "Dt.C59_KE_partial",
    "Dt.C59_full_segments_partial",
    "Dt.C59_false"
   ],
   "note": "False of the code: with the C++ container the sums run over whole segments (C59_false). Proved: the exact value (stored particles plus the stale slots of the last segment), and that it is right when the last segment is full."
  },
  {
   "property": "C60",
   "status": "partial",
   "theorems": [
    "Dt.C60_no_external_partial",
    "Dt.C60_false_external",
    "Dt.C60_false_switched_off"
   ],
   "note": "False in general: with an external field the E column holds solved + randomized external field and the other one the randomized field; with a given field switched off the crossing raises. Proved without external field."
  },
  {
   "property": "C61",
   "status": "partial",
   "theorems": [
    "Dt.Sources.C61_false_region",
    "Dt.Sources.C61_source_call",
    "Dt.Sources.C61_listed_partial",
    "Dt.Sources.C61_unknown_kind"
   ],
   "note": "False: every function_over_region entry using create_maxwellian_particles raises AttributeError (the step argument is omitted). Proved for listed entries."
  },
  {
   "property": "C62",
   "status": "partial",
   "theorems": [
    "Dt.Sources.C62_first_point_partial",
    "Dt.Sources.C62_false_after_read"
   ],
   "note": "Proved for storages that accept new particles and whose trajectories all index existing particles; after a read loop the point is taken from another particle (C62_false_after_read)."
  },
  {
   "property": "C63",
   "status": "proved",
   "theorems": [
    "Dt.C63_inside",
    "Dt.C63_flat_raises",
    "Dt.C63_python",
    "Dt.C63_agree"
   ],
   "note": ""
  },
  {
   "property": "C64",
   "status": "partial",
   "theorems": [
    "Dt.C64_exact",
    "Dt.C64_leaving",
    "Dt.C64_tables",
    "Dt.C64_false_inside_move"
   ],
   "note": "Agreement proved wherever Python names a facet, in particular for every move out of the cell (C64_leaving); false for a move that crosses no facet (C64_false_inside_move): Python returns NO_FACET, the compiled function exits (1D) or reads outside its array (2D, 3D). C64_exact describes every case."
  },
  {
   "property": "C65",
   "status": "partial",
   "theorems": [
    "Dt.C65_pass_refines_list",
    "Dt.C65_steps_compose",
    "Dt.C65_push_after_pass_exact",
    "Dt.C65_agrees_with_python",
    "Dt.C65_skip_idle",
    "Dt.C65_false_segment_length_one"
   ],
   "note": "Proved for segment length at least 2 and below 2^32 particles, including total loss, and for any number of steps. False parts: segment length 1 (C65_false_segment_length_one) and appending after a pass whose survivors fill their segments while the last moved particle was deleted (C65_push_after_pass_exact gives the exact condition)."
  },
  {
   "property": "C66",
   "status": "partial",
   "theorems": [
    "Dt.C66_layouts",
    "Dt.C66_charged_particle",
    "Dt.C66_neutral_particle",
    "Dt.C66_charged_step",
    "Dt.C66_neutral_step",
    "Dt.C66_interval_mesh",
    "Dt.C66_false_neutral_xy"
   ],
   "note": "Proved for the charged movers (x, r, xy) with the given field and for the three-dimensional neutral mover with callbacks that do not look at the move vector (C66_charged_step, C66_neutral_step, on top of the one-particle forms); failures are matched with failures, not with the same error. False for the two-dimensional neutral mover, whose scratch array is laid out inconsistently (C66_false_neutral_xy). How the field of a particle is found is C67."
  },
  {
   "property": "C67",
   "status": "partial",
   "theorems": [
    "Dt.C67_applied_field_partial",
    "Dt.C67_false_no_solved_field",
    "Dt.C67_false_external",
    "Dt.C67_external_ignored",
    "Dt.C67_agrees_with_python",
    "Dt.C67_false_accel_only",
    "Dt.C67_false_missing_name",
    "Dt.C67_false_second_component",
    "Dt.C67_false_disabled_crossing"
   ],
   "note": "Proved for a given solved field without an external field, for every scratch content, and shown equal to the Python step (C67_agrees_with_python). The rest is false in the code: no solved field -> AttributeError, external field -> TypeError (and ignored if the compiled function is called directly, C67_external_ignored), accel_only ignored, missing species name read as disabled, second field component of crossing records not written, null dereference at a marked facet for a disabled field; each has a C67_false_ theorem."
  },
  {
   "property": "C68",
   "status": "proved",
   "theorems": [
    "Dt.C68_run"
   ],
   "note": "C68_run, for all configurations without trajectories. The two conditions (no total loss in one step, particles on the mesh) are part of the statement; C72_false_ghost_charge shows the first is needed."
  },
  {
   "property": "C69",
   "status": "partial",
   "theorems": [
    "Dt.C69_file_closed_partial",
    "Dt.C69_false_left_open"
   ],
   "note": "False if the interval divides the last step, or if there are no steps but initial particles (C69_false_left_open); C69_file_closed_partial gives the exact condition."
  },
  {
   "property": "C70",
   "status": "partial",
   "theorems": [
    "Dt.C70_no_sources_partial",
    "Dt.C70_neutral_source_raises_partial",
    "Dt.C70_false_source_after_loss"
   ],
   "note": "False: C70_false_source_after_loss (charged species), C70_neutral_source_raises_partial (a neutral source acting at every step stops every run longer than the segment length). Proved: without sources only movers raise (C70_no_sources_partial); appendAll_exact is the exact condition."
  },
  {
   "property": "C71",
   "status": "proved",
   "theorems": [
    "Dt.C71_step",
    "Dt.C71_particles_accounted_for"
   ],
   "note": "C71_particles_accounted_for for whole runs, C71_step for one step."
  },
  {
   "property": "C72",
   "status": "partial",
   "theorems": [
    "Dt.C72_charge_conserved_partial",
    "Dt.C72_false_ghost_charge"
   ],
   "note": "Proved for runs in which no species loses all particles in one step; false otherwise (C72_false_ghost_charge: charge of stale records stays for ever)."
  },
  {
   "property": "C73",
   "status": "proved",
   "theorems": [
    "Dt.C73_in_its_cell"
   ],
   "note": "For runs in which no species loses all its particles in one step; C72_false_ghost_charge shows what is left otherwise."
  },
  {
   "property": "C74",
   "status": "proved",
   "theorems": [
    "Dt.C74_only_errors",
    "Dt.C74_line_runs"
   ],
   "note": "For runs in which no species loses all its particles in one step (C14). Sources can stop a run (C70), hence the assertion in the general theorem."
  },
  {
   "property": "C75",
   "status": "proved",
   "theorems": [
    "Dt.C75_particle",
    "Dt.C75_step",
    "Dt.C75_run"
   ],
   "note": "Two- and three-dimensional instances of the hypotheses on the mesh are in Props/SquareMesh."
  },
  {
   "property": "C76",
   "status": "partial",
   "theorems": [
    "Dt.C76_particle",
    "Dt.C76_determined",
    "Dt.C76_walls",
    "Dt.C76_no_error",
    "Dt.C76_folded",
    "Dt.C76_run",
    "Dt.C76_runs",
    "Dt.C76_false_two_mirrors"
   ],
   "note": "The motion is proved for all combinations of ends (C76_particle). Running without errors is proved for an absorbing outer end; between two mirrors it is false (C76_false_two_mirrors): a fast particle exceeds the crossing limit. Runs in which a species loses all its particles in one step are excluded (C14)."
  },
  {
   "property": "C77",
   "status": "proved",
   "theorems": [
    "Dt.C77_particle",
    "Dt.C77_run"
   ],
   "note": "The count is part of the state of the callbacks; the sources do not change it. Runs in which a species loses all its particles in one step are excluded (C14)."
  },
  {
   "property": "C78",
   "status": "proved",
   "theorems": [
    "Dt.TrajLoop.C78_run",
    "Dt.TrajLoop.C78_history",
    "Dt.TrajLoop.C78_tracing_inert"
   ],
   "note": "Programs in which a scheduled point is due for a full data array (C19), a source makes a marked particle after the container has been read (C62), or a species that lost all particles in one step is used again (C14) are outside the quantifier."
  },
  {
   "property": "C79",
   "status": "partial",
   "theorems": [
    "Dt.Setup.C79_setup_partial",
    "Dt.Setup.C79_coordinates",
    "Dt.Setup.C79_calls",
    "Dt.Setup.C79_too_early",
    "Dt.Setup.C79_false_no_mover",
    "Dt.Setup.C79_false_first_record",
    "Dt.Setup.C79_false_fields"
   ],
   "note": "False in parts: no compiled mover exists for neutral species in cartesian_x or spherical_r nor for charged ones in cartesian_xyz, so the set-up raises AttributeError; record_trajectory_data before initialize_particle_integration (examples/sphere1D/sphere1D.py:1207 and 1265) raises AttributeError if a charged particle has a trajectory; compiled movers cannot be called with an external field or without a field. The exact conditions are proved.  C79_coordinates: exactly which names of coordinate systems are accepted, and their coordinates."
  },
  {
   "property": "C80",
   "status": "partial",
   "theorems": [
    "Dt.Setup.C80_names",
    "Dt.Setup.C80_store",
    "Dt.Setup.C80_copy",
    "Dt.Setup.C80_python_iff",
    "Dt.Setup.C80_cpp_iff_partial",
    "Dt.Setup.C80_distribution",
    "Dt.Setup.C80_false_shipped",
    "Dt.Setup.C80_false_long"
   ],
   "note": "False in parts: the C++ container stores tuples with too many values, the Python one refuses them; the distribution neutral_H of UserParticles_1D.py makes tuples without crossings, so creating its particles raises ValueError."
  },
  {
   "property": "C81",
   "status": "partial",
   "theorems": [
    "Dt.C81_run",
    "Dt.C81_no_sources",
    "Dt.C81_sources_partial",
    "Dt.C81_false_source_after_loop",
    "Dt.C81_false_source_after_loss"
   ],
   "note": "False for sources: create_maxwellian_particles uses the overload of push_back that asserts, so a source aborts the program if the last segment is full and a loop over the species came before, or the last mover call lost its last particle. C81_run says exactly when; without sources the statement holds."
  },
  {
   "property": "C82",
   "status": "partial",
   "theorems": [
    "Dt.C82_radial",
    "Dt.C82_interval_field",
    "Dt.C82_rectangle",
    "Dt.C82_circle",
    "Dt.C82_accepts",
    "Dt.C82_false_interval_particles",
    "Dt.C82_false_box",
    "Dt.C82_false_fine_cells",
    "Dt.C82_false_sources",
    "Dt.C82_false_files",
    "Dt.C82_no_dictionary"
   ],
   "note": "Proved for the radial mesh, field tags of an interval (iff it is wider than the tolerance 1e-10), rectangles (iff width and cell height are at least 1e-10) and the quarter circle. False for particle tags of Cartesian intervals and for boxes (the dictionary is ignored), source dictionaries (NameError, exit), field dictionaries of rectangles (exit) and markers read from files by the radial mesh (dropped)."
  },
  {
   "property": "C83",
   "status": "partial",
   "theorems": [
    "Dt.C83_named_walls",
    "Dt.C83_particle",
    "Dt.C83_false_unmarked",
    "Dt.C83_false_interval"
   ],
   "note": "Proved for the radial mesh from create_mesh to the motion of a particle. False on Cartesian intervals and boxes: no facet is tagged, and a particle that leaves makes the mover fail whatever the callbacks (C83_false_unmarked, C83_false_interval). Rectangles are C85."
  },
  {
   "property": "C84",
   "status": "partial",
   "theorems": [
    "Dt.C84_particle",
    "Dt.C84_neutral",
    "Dt.C84_energy",
    "Dt.C84_no_error",
    "Dt.C84_false_neutral"
   ],
   "note": "Proved for charged species on all conforming meshes in any dimension, convex or not, and for neutral species with holes; the hypotheses are met by the rectangle (C85_named_walls) and cases are computed in Props/RectMesh. False for neutral species and mirrors (C84_false_neutral): the callbacks do not see the current move."
  },
  {
   "property": "C85",
   "status": "partial",
   "theorems": [
    "Dt.C85_coordinates",
    "Dt.C85_named_walls",
    "Dt.C85_particle",
    "Dt.C85_run",
    "Dt.C85_false_fast"
   ],
   "note": "Proved from create_mesh to the motion of a particle and to whole simulations with absorbing sides, for every division of every cell into triangles. Not unconditional: a particle that bounces so often that it meets more than 100 facets in a step stops the run (C85_false_fast), and width and cell height must be at least 1e-10 (C82)."
  },
  {
   "property": "C86",
   "status": "partial",
   "theorems": [
    "Dt.C86_particle",
    "Dt.C86_neutral",
    "Dt.C86_reflections",
    "Dt.C86_named_walls",
    "Dt.C86_run",
    "Dt.C86_false_fine"
   ],
   "note": "Proved with the exact bound 2(nx+ny)-2 on crossings (more with mirrors), including particles through corners, and for whole simulations. False beyond the bound: C86_false_fine (26 by 26 boxes), and between two mirrors for fast particles (C85_false_fast)."
  },
  {
   "property": "C87",
   "status": "partial",
   "theorems": [
    "Dt.C87_point",
    "Dt.C87_false_reported",
    "Dt.C87_false_indices",
    "Dt.C87_particles",
    "Dt.C87_rectangle",
    "Dt.C87_present"
   ],
   "note": "Every particle in the mesh is labelled with a cell that contains it (any mesh of regular cells; rectangles). False in the code: a point outside is not reported, because Dolfin returns 4294967295 and NO_CELL is -1, so a KeyError is raised instead of the message (C87_false_reported, C87_particles); compute_cell_indices always raises NameError (C87_false_indices)."
  },
  {
   "property": "C88",
   "status": "proved",
   "theorems": [
    "Dt.C88_conforming",
    "Dt.C88_points",
    "Dt.C88_mover",
    "Dt.C88_located",
    "Dt.C88_rectangle"
   ],
   "note": "For any triangulation of dimension one to three with the incidence data of Dolfin; C88_rectangle shows that the rectangle of C85/C86 is such a mesh."
  },
  {
   "property": "C89",
   "status": "proved",
   "theorems": [
    "Dt.C89_potential",
    "Dt.C89_solve",
    "Dt.C89_marks"
   ],
   "note": "Cartesian and radial; solution exists and is unique for every right-hand side, boundary values, Gauss's law. The assembly of Dolfin is written out with exact integrals; the linear solver is any function that solves the system."
  },
  {
   "property": "C90",
   "status": "proved",
   "theorems": [
    "Dt.C90_plates"
   ],
   "note": "Cartesian; compared with the Green function of two plates, stated without the model."
  },
  {
   "property": "C91",
   "status": "partial",
   "theorems": [
    "Dt.C91_density",
    "Dt.C91_assembled",
    "Dt.C91_false_radial",
    "Dt.C91_false_density_lost"
   ],
   "note": "Cartesian constant density: exact (C91_density). False in the code: on a radial mesh the density lacks the r^2 volume element (C91_false_radial); the solve with a particle charge overwrites the assembled density (C91_false_density_lost). String expressions are not modelled."
  },
  {
   "property": "C92",
   "status": "proved",
   "theorems": [
    "Dt.C92_gauss",
    "Dt.C92_exact"
   ],
   "note": "Every state of the simulation of C74/C92 on an interval mesh; the mover is the modelled one."
  },
  {
   "property": "C93",
   "status": "proved",
   "theorems": [
    "Dt.C93_field_unique",
    "Dt.C93_sphere"
   ],
   "note": "Radial mesh, tags, callbacks, solver, mover and time loop together, against a specification without cells of particles, containers or potentials. Exact arithmetic; the linear solver is any function that solves the system; the cell in which the field is looked up is any function that finds a cell containing the point."
  },
  {
   "property": "C94",
   "status": "partial",
   "theorems": [
    "Dt.C94_potential",
    "Dt.C94_unique",
    "Dt.C94_energy",
    "Dt.C94_shape",
    "Dt.C94_false_unset",
    "Dt.C94_false_unmarked",
    "Dt.C94_density",
    "Dt.C94_total"
   ],
   "note": "Existence, uniqueness, boundary values, weak Gauss law and least energy on any mesh of simplices with linear elements (C94_shape: every triangulation has them). False in parts: the value 'unset' ends with a TypeError in the two-dimensional solver, and tags that are not on the mesh are accepted and leave a singular system. C94_density and C94_total: the load of a uniform source density."
  },
  {
   "property": "C95",
   "status": "partial",
   "theorems": [
    "Dt.C95_range_partial",
    "Dt.C95_false_range"
   ],
   "note": "Proved for meshes without obtuse angles; false in general: a mesh of two triangles with an obtuse angle gives a potential of 3/2 between 0 and 1 (C95_false_range)."
  },
  {
   "property": "C96",
   "status": "proved",
   "theorems": [
    "Dt.C96_gauss",
    "Dt.C96_energy"
   ],
   "note": "Every state of the simulation of C68 on any triangulation; the linear solver is any function that solves the system."
  },
  {
   "property": "C97",
   "status": "proved",
   "theorems": [
    "Dt.C97_field_unique",
    "Dt.C97_plasma"
   ],
   "note": "Mesh tables, solver, deposition, mover and time loop together, against a specification without cell numbers, containers, degrees of freedom or matrices. Exact arithmetic; boundary callbacks absorb; the fates of runs that stop early are those of Ideal.run (C68, C74)."
  },
  {
   "property": "C98",
   "status": "partial",
   "theorems": [
    "Dt.C98_sector",
    "Dt.C98_vertices",
    "Dt.C98_points",
    "Dt.C98_round",
    "Dt.C98_solver",
    "Dt.C98_mover",
    "Dt.C98_false_centre",
    "Dt.C98_false_coarse"
   ],
   "note": "Over the real numbers with cos, sin, sqrt and powers. False in parts: rmin = 0 (the centre) and rays half a turn apart are accepted and make flat triangles (C98_false_centre, C98_false_coarse). Marks need cells not smaller than the tolerance of the marking (C82)."
  },
  {
   "property": "C99",
   "status": "partial",
   "theorems": [
    "Dt.C99_crossed",
    "Dt.C99_vertices",
    "Dt.C99_points",
    "Dt.C99_solver",
    "Dt.C99_mover",
    "Dt.C99_false_fine",
    "Dt.C99_false_half"
   ],
   "note": "Over the real numbers. False without a condition that the code does not check: C99_crossed gives the exact condition, C99_false_fine and C99_false_half violate it."
  },
  {
   "property": "C100",
   "status": "partial",
   "theorems": [
    "Dt.C100_names",
    "Dt.C100_files",
    "Dt.C100_distinct",
    "Dt.C100_false_untitled",
    "Dt.C100_false_anonymous",
    "Dt.C100_false_text",
    "Dt.C100_program",
    "Dt.C100_false_same_id"
   ],
   "note": "False when two trajectories of a species have the same unique ID (C100_false_same_id), for trajectories without ID, without title or author, and for attributes that are not numbers; C100_files says what is on disk in all other cases, C100_program for whole programs."
  },
  {
   "property": "C101",
   "status": "partial",
   "theorems": [
    "Dt.C101_box",
    "Dt.C101_points",
    "Dt.C101_cells",
    "Dt.C101_mover",
    "Dt.C101_false_walls",
    "Dt.C101_plasma"
   ],
   "note": "The named walls are false: in three dimensions create_mesh marks nothing, so a particle that leaves makes the mover fail (C101_false_walls). The rest is proved; C101_mover and C101_plasma are for a surface that is marked by other means, and C101_mover leaves open that the limit on facet crossings is reached (excluded by C102_box_mover for boxes that are not too fine)."
  },
  {
   "property": "C102",
   "status": "proved",
   "theorems": [
    "Dt.C102_plane",
    "Dt.C102_line",
    "Dt.C102_box",
    "Dt.C102_sector",
    "Dt.C102_crossed",
    "Dt.C102_mover",
    "Dt.C102_each_cell_once",
    "Dt.C102_box_mover",
    "Dt.C102_run"
   ],
   "note": "For each direction the cells are numbered so that the number decreases across every facet; in the plane from an order of segments without cycles, on the box by counting planes, on the sector by counting rings and rays. C102_box is attained by an example. In three dimensions a general mesh is not covered (cells can lie in a circle one behind the other); the statement does not claim it."
  },
  {
   "property": "C103",
   "status": "proved",
   "theorems": [
    "Dt.C103_triangulation",
    "Dt.C103_named_walls",
    "Dt.C103_crossings",
    "Dt.C103_particle",
    "Dt.C103_run"
   ],
   "note": "The mesh Dolfin returns for diagonal = crossed is written out (Model/Crossed). The square root used for facet normals is any function that is positive on positive numbers and right on squares; Real.sqrt is one. C103_run is for sides that absorb."
  },
  {
   "property": "C104",
   "status": "proved",
   "theorems": [
    "Dt.C104_balance",
    "Dt.C104_step",
    "Dt.C104_grounded",
    "Dt.C104_run"
   ],
   "note": "The setting of C97_plasma. C104_balance and C104_step are about point charges and potentials only; C104_run is about the states of a simulation. When a particle crosses into another simplex the energy can change; the amount is that of C104_balance."
  },
  {
   "property": "C105",
   "status": "proved",
   "theorems": [
    "Dt.C105_field_energy",
    "Dt.C105_balance",
    "Dt.C105_step",
    "Dt.C105_field",
    "Dt.C105_unique",
    "Dt.C105_calm",
    "Dt.C105_sphere",
    "Dt.C105_crossing"
   ],
   "note": "C105_balance, C105_step and C105_field_energy are about the specification of C93 (IsField) only, for sheets and shells; C105_calm about a step of a simulation, C105_sphere about the runs of the spherical example. C105_crossing is a run in which a particle passes a vertex and the energy changes, as the statement says."
  },
  {
   "property": "C106",
   "status": "partial",
   "theorems": [
    "Dt.C106_user1D",
    "Dt.C106_user2D",
    "Dt.C106_user3D",
    "Dt.C106_cpp_spherical",
    "Dt.C106_compiled",
    "Dt.C106_false_neutral_rmin",
    "Dt.C106_stops",
    "Dt.C106_stops_3D",
    "Dt.C106_stops_xmax",
    "Dt.C106_run",
    "Dt.C106_sphere"
   ],
   "note": "The choice is determined for every boundary and species (C106_user1D, C106_user2D, C106_user3D, C106_cpp_spherical, C106_compiled). False in parts: default_bc_at_xmax of UserParticles_1D and all functions of UserParticles_3D except those for xmin and ymin only print, and a particle that leaves there makes the mover fail (C106_stops, C106_stops_xmax, C106_stops_3D, C106_run); neutral_H at rmin is deleted in Python and reflected by the compiled functions (C106_false_neutral_rmin). C106_sphere: the one-dimensional functions on a sphere or shell give the motion between walls of C83."
  },
  {
   "property": "C107",
   "status": "proved",
   "theorems": [
    "Dt.C107_same_mesh",
    "Dt.C107_mover",
    "Dt.C107_numbered"
   ],
   "note": "C107_same_mesh: on every triangulation whose cells are numbered from zero without gaps both are made and are twins in the sense of C66. C107_mover: hence both movers give the same. C107_numbered: rectangles, sectors, crossed meshes and boxes are numbered so."
  },
  {
   "property": "C108",
   "status": "proved",
   "theorems": [
    "Dt.C108_convex",
    "Dt.C108_triangulation",
    "Dt.C108_sphere"
   ],
   "note": "C108_convex: whenever such a program ends. C108_triangulation: on a triangulation of a convex domain it does end, except that a source can abort it (the defect of C81). C108_sphere: interval with a mirror at the inner end. The two-dimensional neutral mover has a wrong layout (C66) and is excluded by the hypothesis on the layout unless the program does not call it."
  },
  {
   "property": "C109",
   "status": "partial",
   "theorems": [
    "Dt.C109_run",
    "Dt.C109_follows_python",
    "Dt.C109_python_follows",
    "Dt.C109_programs_agree",
    "Dt.C109_ends_normally",
    "Dt.C109_movers",
    "Dt.C109_line_runs",
    "Dt.C109_false_all_lost"
   ],
   "note": "False as stated (C109_false_all_lost): if a species loses all its particles in one step the Python program goes on with the charge of the records left over (C72), the compiled one does not. Proved otherwise: C109_run (compiled program = simulation on lists), C109_programs_agree and C109_follows_python (the two programs), C109_python_follows (converse, except in that case), C109_movers (the movers of C66 meet the hypothesis), C109_ends_normally and C109_line_runs."
  },
  {
   "property": "C110",
   "status": "partial",
   "theorems": [
    "Dt.C110_history_succeeds",
    "Dt.C110_reads",
    "Dt.C110_movers",
    "Dt.C110_dictionaries_serve",
    "Dt.C110_volumes",
    "Dt.C110_cell_indices",
    "Dt.C110_false_particle_mesh"
   ],
   "note": "The last sentence is false (C110_false_particle_mesh): initialize_particle_mesh does not make the cell objects, so on a mesh constructed without dictionaries every Python mover raises KeyError. Proved: which histories succeed, what every lookup gives after every history, and exactly when moving, dividing by volumes and finding cells work."
  },
  {
   "property": "C111",
   "status": "partial",
   "theorems": [
    "Dt.C111_field",
    "Dt.C111_bound",
    "Dt.C111_empty_cell",
    "Dt.C111_self_force",
    "Dt.C111_exact_field",
    "Dt.C111_run",
    "Dt.C111_false_direction"
   ],
   "note": "False for the charges in the particle's own cell (C111_false_direction: a whole simulation of one electron). Proved for all simulations: the exact difference between the applied field and the exact field, which only involves charges in the particle's cell; its bound; exactness in cells without charges; and the self-force of a particle alone in its cell."
  },
  {
   "property": "C112",
   "status": "partial",
   "theorems": [
    "Dt.C112_force",
    "Dt.C112_step",
    "Dt.C112_momentum",
    "Dt.C112_false_momentum"
   ],
   "note": "False (C112_false_momentum: a whole simulation). Proved for all simulations: the momentum changes by the force at the plates plus, for each cell, the difference of the squares of the charges deposited at its two vertices by its particles."
  },
  {
   "property": "C113",
   "status": "partial",
   "theorems": [
    "Dt.C113_step",
    "Dt.C113_run",
    "Dt.C113_false_failure"
   ],
   "note": "The last sentence is false (C113_false_failure): whether a source meets a container that cannot grow depends on whether the last particle was lost. Proved for all pairs of simulations that run."
  },
  {
   "property": "C114",
   "status": "partial",
   "theorems": [
    "Dt.C114_mean",
    "Dt.C114_bound",
    "Dt.C114_voltage",
    "Dt.C114_run",
    "Dt.C114_false_potential"
   ],
   "note": "The last statement (potential) is false (C114_false_potential, C114_voltage: the voltage of a cell from a to b is too small by 3ab/(a^2+ab+b^2)). Proved: the field in a cell without charges is the exact one at its root mean square radius; error bound for every cell but the one around the centre, in every step of every simulation of C93."
  },
  {
   "property": "C115",
   "status": "proved",
   "theorems": [
    "Dt.C115_step",
    "Dt.C115_run"
   ],
   "note": "For pairs of simulations of C93 or C111 that both run without a failure. An added particle that crosses too many facets stops the simulation like any other (C26)."
  },
  {
   "property": "C116",
   "status": "proved",
   "theorems": [
    "Dt.C116_twice",
    "Dt.C116_step",
    "Dt.C116_run"
   ],
   "note": "In exact arithmetic, for pairs of simulations of C93 or C111 that both run. The velocities of a state belong to half a step earlier; they must be advanced by one kick before the signs are changed."
  },
  {
   "property": "C117",
   "status": "proved",
   "theorems": [
    "Dt.C117_field",
    "Dt.C117_step",
    "Dt.C117_run"
   ],
   "note": "In exact arithmetic, for pairs of simulations of C93 or C111 that both run, with cell searches that choose the same cell for a point on a vertex. Meshes made by the library have a length built in: boundaries are found with a fixed tolerance (C82)."
  },
  {
   "property": "C118",
   "status": "partial",
   "theorems": [
    "Dt.C118_segments",
    "Dt.C118_output",
    "Dt.C118_longer",
    "Dt.C118_false_segments"
   ],
   "note": "True of the output settings and of the number of steps (C118_output, C118_longer), for runs in the scope of C68: no species loses all its particles in one step (C14). For the segment length true of all runs that end normally (C118_segments); false in general, because a source can meet an AssertionError with one segment length and not with another (C118_false_segments, cf. C70)."
  },
  {
   "property": "C119",
   "status": "partial",
   "theorems": [
    "Dt.C119_exact",
    "Dt.C119_nothing_asked_partial",
    "Dt.C119_false_name"
   ],
   "note": "False: the module of the compiled functions is never imported. C119_exact says for all inputs when the call raises a NameError (C119_false_name shows a case); otherwise it does nothing, so the two agree only if no field is given (C119_nothing_asked_partial)."
  },
  {
   "property": "C120",
   "status": "proved",
   "theorems": [
    "Dt.C120_plasma"
   ],
   "note": "C120_plasma: the arrays are built from the mesh (C107), the solver is made (C94), the compiled program agrees with the simulation on lists (C109), and the states of the latter satisfy the specification Comp.PlasmaStep; second part: it does not fail."
  },
  {
   "property": "C121",
   "status": "proved",
   "theorems": [
    "Dt.C121_sphere"
   ],
   "note": "C121_sphere: markers (C82), function table (C40, C106), solver (C89), compiled program = simulation on lists (C109), whose states satisfy Comp.FieldStep; second part: it does not fail."
  },
  {
   "property": "C122",
   "status": "proved",
   "theorems": [
    "Dt.C122_triangulation",
    "Dt.C122_numbered",
    "Dt.C122_convex",
    "Dt.C122_python",
    "Dt.C122_compiled",
    "Dt.C122_meshed",
    "Dt.C122_linked",
    "Dt.C122_crossings",
    "Dt.C122_plasma"
   ],
   "note": "C122_python, C122_compiled: both builders return exactly lineMesh / lineCpp, the meshes of the one-dimensional theorems; C122_triangulation, C122_convex, C122_meshed, C122_linked: the hypotheses of C97, C101-C104, C120 hold; C122_plasma puts them together."
  },
  {
   "property": "C123",
   "status": "partial",
   "theorems": [
    "Dt.C123_false_provided",
    "Dt.C123_exact"
   ],
   "note": "False of the code: C123_false_provided (a NameError whenever a function is provided).  C123_exact says when the table is made and what it holds (None everywhere)."
  },
  {
   "property": "C124",
   "status": "proved",
   "theorems": [
    "Dt.C124_step",
    "Dt.C124_run",
    "Dt.C124_runs",
    "Dt.C124_mover",
    "Dt.C124_program"
   ],
   "note": "C124_step and C124_run (with steady sources), C124_runs and C124_program (no sources: success, containers, potential, histories), C124_mover (the Python mover meets the condition for callbacks without memory).  That with sources a failure can depend on the order is C113_false_failure."
  },
  {
   "property": "C125",
   "status": "proved",
   "theorems": [
    "Dt.C125_step",
    "Dt.C125_run",
    "Dt.C125_runs",
    "Dt.C125_mover",
    "Dt.C125_program"
   ],
   "note": "C125_step, C125_run, C125_runs, C125_program and C125_mover, as C124, for the compiled program; applied to the two triangles for every order and every number of steps."
  },
  {
   "property": "C126",
   "status": "partial",
   "theorems": [
    "Dt.C126_created",
    "Dt.C126_wrong_length",
    "Dt.C126_two_d",
    "Dt.C126_three_d",
    "Dt.C126_distinct",
    "Dt.C126_counting",
    "Dt.C126_not_listed",
    "Dt.C126_false_short",
    "Dt.C126_false_name",
    "Dt.C126_false_ids",
    "Dt.C126_false_deleted",
    "Dt.C126_in_quarter"
   ],
   "note": "C126_created (a list of tuples is a list of records), C126_two_d, C126_three_d, C126_in_quarter (what is listed), C126_counting and C126_distinct (identities over any sequence of calls), C126_not_listed.  False for the 1-D neutrals (short tuples), for testelectrons of UserParticles_2D_H_He_e.py (NameError), for the fixed identities of plasma_electrons and H_plus, and for the second ion of H_plus, which carries the flag of deleted particles and is dropped in its first step."
  },
  {
   "property": "C127",
   "status": "partial",
   "theorems": [
    "Dt.C127_superposition",
    "Dt.C127_influence",
    "Dt.C127_potential",
    "Dt.C127_energy",
    "Dt.C127_order_partial",
    "Dt.C127_run",
    "Dt.C127_one_d",
    "Dt.C127_false_order"
   ],
   "note": "C127_superposition, C127_influence, C127_potential, C127_energy on every triangulation; C127_run for every state of every simulation; C127_one_d for both one-dimensional solvers, including the order.  C127_order_partial: the order on triangulations without obtuse angles; with obtuse angles it is false (C127_false_order)."
  },
  {
   "property": "C128",
   "status": "proved",
   "theorems": [
    "Dt.C128_step",
    "Dt.C128_compiled_step",
    "Dt.C128_run",
    "Dt.C128_compiled",
    "Dt.C128_program",
    "Dt.C128_compiled_program",
    "Dt.C128_mover",
    "Dt.C128_compiled_mover"
   ],
   "note": "C128_step and C128_compiled_step relate one step, C128_run and C128_compiled all steps, C128_program and C128_compiled_program the containers at the end of the programs; C128_mover and C128_compiled_mover: the movers of the code keep weights.  The movers must be oblivious (C125 proves it of both movers)."
  },
  {
   "property": "C129",
   "status": "partial",
   "theorems": [
    "Dt.C129_segments",
    "Dt.C129_output",
    "Dt.C129_longer",
    "Dt.C129_false_segments"
   ],
   "note": "C129_output: with equal segments nothing else matters.  C129_segments: other segments change nothing, except that sources may abort; C129_false_segments shows that they do.  C129_longer: a longer run begins with the records of a shorter one.  Scope as in C109: particles on the mesh, fewer than 2^32."
  },
  {
   "property": "C130",
   "status": "proved",
   "theorems": [
    "Dt.C130_callbacks",
    "Dt.C130_mesh",
    "Dt.C130_run",
    "Dt.C130_program",
    "Dt.C130_compiled",
    "Dt.C130_compiled_program"
   ],
   "note": "C130_mesh: the mesh dictionaries convert, or fail alike.  C130_run: whole simulations with the Python mover; C130_program: the containers, potential and field records of the programs.  C130_compiled and C130_compiled_program: the same for the compiled mover, where errors may differ.  Arithmetic is exact: with floating-point numbers the claim holds only up to rounding.  Particles and mesh have the same number of coordinates.  C130_callbacks: the boundary functions shipped with the code convert."
  },
  {
   "property": "C131",
   "status": "proved",
   "theorems": [
    "Dt.C131_twice",
    "Dt.C131_run",
    "Dt.C131_compiled"
   ],
   "note": "C131_run: Python mover; C131_compiled: compiled mover; both for whole runs.  C131_twice: reversing twice.  Arithmetic is exact: with floating-point numbers the claim holds only up to rounding.  Particles on the border of two cells are excluded: there the field is not unique, and a reversed particle may see the field of the other cell."
  },
  {
   "property": "C132",
   "status": "proved",
   "theorems": [
    "Dt.C132_run",
    "Dt.C132_compiled",
    "Dt.C132_symmetric"
   ],
   "note": "C132_run: Python mover; C132_compiled: compiled mover; C132_symmetric: symmetric set-ups.  Arithmetic is exact: with floating-point numbers the claim holds only up to rounding.  Boundary callbacks are those that only mark particles for deletion (PlainBC).  Particles between two cells are excluded: there the field is not unique and depends on the numbering."
  },
  {
   "property": "C133",
   "status": "proved",
   "theorems": [
    "Dt.C133_run",
    "Dt.C133_compiled"
   ],
   "note": "C133_run: Python mover; C133_compiled: compiled mover; both for whole runs.  Arithmetic is exact: with floating-point numbers the claim holds only up to rounding.  Boundary callbacks are those that only mark particles for deletion (PlainBC).  Particles between two cells are excluded: there the field is not unique."
  },
  {
   "property": "C134",
   "status": "partial",
   "theorems": [
    "Dt.C134_compiled_labels",
    "Dt.C134_compiled_fraction",
    "Dt.C134_compiled_times_partial",
    "Dt.C134_compiled_exact",
    "Dt.C134_false_compiled_late",
    "Dt.C134_false_compiled_exit",
    "Dt.C134_labels",
    "Dt.C134_fraction",
    "Dt.C134_times_partial",
    "Dt.C134_errors_partial",
    "Dt.C134_exact",
    "Dt.C134_exact_species",
    "Dt.C134_run",
    "Dt.C134_false_late",
    "Dt.C134_false_no_facet"
   ],
   "note": "C134_labels: labels and counters, for any arithmetic at all.  C134_fraction: range of the fraction.  C134_times_partial: recorded times do not decrease and are not before the beginning of the step; they may be later than its end (C134_false_late).  C134_errors_partial: only the three RuntimeErrors of the tracking loop are possible; rounding can cause them (C134_false_no_facet).  C134_run: whole runs.  C134_exact ties the rounded movers to the exact ones of the other properties.  Overflow and NaN are not modelled; the positions themselves are as wrong as the rounding makes them.  C134_compiled_labels, C134_compiled_fraction, C134_compiled_times_partial, C134_compiled_exact: the same for the compiled movers, with fused operations or without; the two exceptions hold there too (C134_false_compiled_late, C134_false_compiled_exit: the program ends)."
  },
  {
   "property": "C135",
   "status": "partial",
   "theorems": [
    "Dt.C135_first_crossing",
    "Dt.C135_neutral_partial",
    "Dt.C135_neutral_exact",
    "Dt.C135_run",
    "Dt.C135_same_bits_partial",
    "Dt.C135_species",
    "Dt.C135_false_times",
    "Dt.C135_false_fused"
   ],
   "note": "C135_same_bits_partial: everything but the recorded times, if the compiler does not fuse operations; C135_neutral_partial: neutral particles, if the callbacks do not look at the move vector; C135_neutral_exact ties the model to the exact one; C135_species: a step of a whole species without trajectories; C135_run: whole programs, in which only the movers round (densities and solver are the same exact functions on both sides).  C135_first_crossing: the recorded times too, if at most one facet is crossed in the step.  False for the times after the first crossing (C135_false_times: Python subtracts the time spent, compiled code multiplies by the remaining fraction) and, if the compiler fuses multiplication and addition, for positions (C135_false_fused)."
  },
  {
   "property": "C136",
   "status": "proved",
   "theorems": [
    "Dt.C136_step",
    "Dt.C136_steps",
    "Dt.C136_neutral"
   ],
   "note": "C136_step: one step, also with different fields; C136_steps: any number of steps in a uniform field, by induction; C136_neutral: neutral particles.  Rounding is an arbitrary function with a bounded error, in the movers as modelled for C134."
  },
  {
   "property": "C137",
   "status": "partial",
   "theorems": [
    "Dt.C137_clock",
    "Dt.C137_order",
    "Dt.C137_exact",
    "Dt.C137_stuck",
    "Dt.C137_false_stands_still"
   ],
   "note": "C137_clock, C137_order and C137_exact prove all but the last clause.  The clock need not advance: a time step that is lost in rounding leaves it where it is (C137_false_stands_still), for ever (C137_stuck), while steps are counted and particles move."
  }
 ]
}