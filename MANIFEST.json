{
 "claims": [
  {
   "property": "C01",
   "status": "proved",
   "theorems": [
    "Gunns.Props.c01_decompose_backward_error",
    "Gunns.Props.c01_decompose_exact",
    "Gunns.Props.c01_positive_offdiag_wrong"
   ],
   "note": "Holds for symmetric matrices with non-positive off-diagonals and positive first diagonal term; last theorem is the witness that the sign hypothesis is needed."
  },
  {
   "property": "C02",
   "status": "proved",
   "theorems": [
    "Gunns.Props.c02_decompose_succeeds"
   ],
   "note": ""
  },
  {
   "property": "C03",
   "status": "partial",
   "theorems": [
    "Gunns.Props.c03_decompose_decision",
    "Gunns.Props.c03_posDef_accepted",
    "Gunns.Props.c03_accepted_posDef_partial",
    "Gunns.Props.c03_negative_first_pivot_accepted",
    "Gunns.Props.c03_indefinite_accepted"
   ],
   "note": "Throwing decision and completeness proved; acceptance does not imply positive definiteness of the input (two witnesses), only of the product of the factors."
  },
  {
   "property": "C04",
   "status": "proved",
   "theorems": [
    "Gunns.Props.c04_solve_correct",
    "Gunns.Props.c04_solve_unique",
    "Gunns.Props.c04_solve_outcome",
    "Gunns.Props.c04_solve_empty"
   ],
   "note": ""
  },
  {
   "property": "C05",
   "status": "proved",
   "theorems": [
    "Gunns.Props.c05_solution_monotone",
    "Gunns.Props.c05_solution_nonneg"
   ],
   "note": ""
  },
  {
   "property": "C06",
   "status": "proved",
   "theorems": [
    "Gunns.Props.c06_invert_correct"
   ],
   "note": ""
  },
  {
   "property": "C07",
   "status": "proved",
   "theorems": [
    "Gunns.Props.c07_sor_answer",
    "Gunns.Props.c07_sor_fixed_point",
    "Gunns.Props.c07_sor_accuracy",
    "Gunns.Props.c07_sor_converges",
    "Gunns.Props.c07_sor_positive_definite_test",
    "Gunns.Props.c07_sor_test_not_definiteness"
   ],
   "note": ""
  },
  {
   "property": "C08",
   "status": "proved",
   "theorems": [
    "Gunns.Props.c08_matrix_entries",
    "Gunns.Props.c08_source_entries",
    "Gunns.Props.c08_ground_free",
    "Gunns.Props.c08_order_irrelevant",
    "Gunns.Props.c08_no_write_outside",
    "Gunns.Props.c08_symmetric",
    "Gunns.Props.c08_conductive"
   ],
   "note": ""
  },
  {
   "property": "C09",
   "status": "proved",
   "theorems": [
    "Gunns.Props.c09_condition_entries",
    "Gunns.Props.c09_rows_positive",
    "Gunns.Props.c09_network_decomposes"
   ],
   "note": ""
  },
  {
   "property": "C10",
   "status": "proved",
   "theorems": [
    "Gunns.Props.c10_same_island_iff_connected",
    "Gunns.Props.c10_label_is_smallest",
    "Gunns.Props.c10_vectors_partition",
    "Gunns.Props.c10_stats"
   ],
   "note": ""
  },
  {
   "property": "C11",
   "status": "proved",
   "theorems": [
    "Gunns.Props.c11_off_implies_solve",
    "Gunns.Props.c11_solve_implies_off",
    "Gunns.Props.c11_network_same_potentials",
    "Gunns.Props.c11_modes_differ"
   ],
   "note": "Exceptions named in the property (first row of an island, one-node islands) appear as the hypothesis of c11_solve_implies_off and as witness c11_modes_differ."
  },
  {
   "property": "C13",
   "status": "proved",
   "theorems": [
    "Gunns.Props.c13_step_counters",
    "Gunns.Props.c13_minor_steps_done",
    "Gunns.Props.c13_last_minor_step_overruns"
   ],
   "note": "The last theorem is the exception: the reported last minor step number overruns by one when the loop runs out."
  },
  {
   "property": "C14",
   "status": "proved",
   "theorems": [
    "Gunns.Props.c14_accept_or_roll_back",
    "Gunns.Props.c14_saved_potentials"
   ],
   "note": ""
  },
  {
   "property": "C15",
   "status": "proved",
   "theorems": [
    "Gunns.Props.c15_accepted_only_if_converged",
    "Gunns.Props.c15_compared_with_last_kept",
    "Gunns.Props.c15_worst_case_timing_accepts_rejected"
   ],
   "note": "The last theorem is the witness for the worst-case-timing exception named in the property."
  },
  {
   "property": "C16",
   "status": "proved",
   "theorems": [
    "Gunns.Props.c16_combined_answer",
    "Gunns.Props.c16_order_independent"
   ],
   "note": ""
  },
  {
   "property": "C17",
   "status": "proved",
   "theorems": [
    "Gunns.Props.c17_potentials_agree",
    "Gunns.Props.c17_pause"
   ],
   "note": "For link methods that leave potentials and ports alone when polled, undone, transporting or outputting."
  },
  {
   "property": "C12",
   "status": "proved",
   "theorems": [
    "Gunns.Props.c12_solutions_are_current",
    "Gunns.Props.c12_stale_after_decomposition_limit",
    "Gunns.Props.c12_stale_after_dummy_mode",
    "Gunns.Props.c12_stale_after_slave_mode",
    "Gunns.Props.c12_stale_after_sor"
   ],
   "note": "The first theorem covers all histories in which the exceptions named in the property cannot occur; the others are witnesses of the exceptions."
  },
  {
   "property": "C18",
   "status": "partial",
   "theorems": [
    "Gunns.Props.c18_init",
    "Gunns.Props.c18_once",
    "Gunns.Props.c18_step_partial",
    "Gunns.Props.c18_step_ok",
    "Gunns.Props.c18_restart_bypasses"
   ],
   "note": "Initialisation decision and the once-only rule proved in full; the guard of step holds only without restart: restart sets the init flag unconditionally (witness c18_restart_bypasses)."
  },
  {
   "property": "C19",
   "status": "proved",
   "theorems": [
    "Gunns.Props.c19_init",
    "Gunns.Props.c19_request",
    "Gunns.Props.c19_history",
    "Gunns.Props.c19_flag"
   ],
   "note": ""
  },
  {
   "property": "C20",
   "status": "partial",
   "theorems": [
    "Gunns.Props.c20_fluid_partial",
    "Gunns.Props.c20_fluid_undefined"
   ],
   "note": "False as stated: refused requests with an invalid port number write outside the arrays of a fluid link. Holds when requested port numbers exist."
  },
  {
   "property": "C21",
   "status": "proved",
   "theorems": [
    "Gunns.Props.c21_panel",
    "Gunns.Props.c21_once"
   ],
   "note": ""
  },
  {
   "property": "C22",
   "status": "partial",
   "theorems": [
    "Gunns.Props.c22_restart_partial",
    "Gunns.Props.c22_restart_locked",
    "Gunns.Props.c22_restart_each",
    "Gunns.Props.c22_restart_fails"
   ],
   "note": "False in general (witness); the exact condition under which restart restores the map is proved."
  },
  {
   "property": "C23",
   "status": "proved",
   "theorems": [
    "Gunns.Props.c23_stamp",
    "Gunns.Props.c23_stamp_always",
    "Gunns.Props.c23_flux",
    "Gunns.Props.c23_transport",
    "Gunns.Props.c23_controller",
    "Gunns.Props.c23_source",
    "Gunns.Props.c23_potential"
   ],
   "note": ""
  },
  {
   "property": "C24",
   "status": "proved",
   "theorems": [
    "Gunns.Props.c24_step",
    "Gunns.Props.c24_charge"
   ],
   "note": ""
  },
  {
   "property": "C25",
   "status": "proved",
   "theorems": [
    "Gunns.Props.c25_exact_solution",
    "Gunns.Props.c25_kirchhoff"
   ],
   "note": ""
  },
  {
   "property": "C26",
   "status": "proved",
   "theorems": [
    "Gunns.Props.c26_bookkeeping"
   ],
   "note": ""
  },
  {
   "property": "C27",
   "status": "proved",
   "theorems": [
    "Gunns.Props.c27_update_completes",
    "Gunns.Props.c27_never_aborts"
   ],
   "note": "That transportFlows leaves port directions and node maps alone is assumed."
  },
  {
   "property": "C28",
   "status": "partial",
   "theorems": [
    "Gunns.Props.c28_no_early_transport_partial",
    "Gunns.Props.c28_exact",
    "Gunns.Props.c28_fed_nodes",
    "Gunns.Props.c28_first_pass_forces"
   ],
   "note": "False as stated when every link draws from an overflowing node at the start (witness c28_first_pass_forces); c28_exact gives the exact condition for networks without cycles."
  },
  {
   "property": "C29",
   "status": "proved",
   "theorems": [
    "Gunns.Props.c29_history",
    "Gunns.Props.c29_no_displacement",
    "Gunns.Props.c29_port_follows",
    "Gunns.Props.c29_direct",
    "Gunns.Props.c29_locked_port",
    "Gunns.Props.c29_moved_socket",
    "Gunns.Props.c29_direct_occupied_connects"
   ],
   "note": "The last three are witnesses of limits: a locked node map, a moved socket, and a direct request with another request pending."
  },
  {
   "property": "C30",
   "status": "proved",
   "theorems": [
    "Gunns.Props.c30_in_bounds",
    "Gunns.Props.c30_newest",
    "Gunns.Props.c30_frozen",
    "Gunns.Props.c30_commanded",
    "Gunns.Props.c30_auto_dump",
    "Gunns.Props.c30_file",
    "Gunns.Props.c30_resize_loses_file",
    "Gunns.Props.c30_linear_dumps"
   ],
   "note": "The last two are the exceptions named in the property."
  },
  {
   "property": "C31",
   "status": "proved",
   "theorems": [
    "Gunns.Props.c31_add_conserves",
    "Gunns.Props.c31_mix",
    "Gunns.Props.c31_mix_order",
    "Gunns.Props.c31_set_mass_fractions",
    "Gunns.Props.c31_set_mole_fractions",
    "Gunns.Props.c31_round_trip",
    "Gunns.Props.c31_mean_weight",
    "Gunns.Props.c31_history",
    "Gunns.Props.c31_init",
    "Gunns.Props.c31_tiny_flow",
    "Gunns.Props.c31_tiny_part",
    "Gunns.Props.c31_stale_flow",
    "Gunns.Props.c31_init_weight",
    "Gunns.Props.c31_throw_changes_flow"
   ],
   "note": "The last five are the limits named in the property."
  },
  {
   "property": "C32",
   "status": "proved",
   "theorems": [
    "Gunns.Props.c32_balance",
    "Gunns.Props.c32_links_draw",
    "Gunns.Props.c32_order",
    "Gunns.Props.c32_energy",
    "Gunns.Props.c32_no_volume",
    "Gunns.Props.c32_history",
    "Gunns.Props.c32_shortage",
    "Gunns.Props.c32_small_inflow",
    "Gunns.Props.c32_slow_drain_throws",
    "Gunns.Props.c32_overflow_heat"
   ],
   "note": "The last four are the limits named in the property; trace compounds are not modelled and the expansion term enters through a function."
  },
  {
   "property": "C33",
   "status": "proved",
   "theorems": [
    "Gunns.Props.c33_no_mutual_demand",
    "Gunns.Props.c33_settles",
    "Gunns.Props.c33_startup",
    "Gunns.Props.c33_forced",
    "Gunns.Props.c33_exchange",
    "Gunns.Props.c33_role_calls",
    "Gunns.Props.c33_demand_limit",
    "Gunns.Props.c33_stuck",
    "Gunns.Props.c33_stuck_after_force",
    "Gunns.Props.c33_first_frame",
    "Gunns.Props.c33_no_master",
    "Gunns.Props.c33_forced_supply_zero"
   ],
   "note": "The last five are the limits named in the property. Frame counts are unbounded in the model."
  },
  {
   "property": "C34",
   "status": "proved",
   "theorems": [
    "Gunns.Props.c34_highest",
    "Gunns.Props.c34_settles",
    "Gunns.Props.c34_steady",
    "Gunns.Props.c34_forced",
    "Gunns.Props.c34_exchange",
    "Gunns.Props.c34_both_supply"
   ],
   "note": "The last theorem is the limit named in the property. c34_settles needs that no item is skipped; c34_steady does not."
  },
  {
   "property": "C35",
   "status": "proved",
   "theorems": [
    "Gunns.Props.c35_step",
    "Gunns.Props.c35_reset",
    "Gunns.Props.c35_history",
    "Gunns.Props.c35_closed",
    "Gunns.Props.c35_undelivered",
    "Gunns.Props.c35_undrawn",
    "Gunns.Props.c35_forced"
   ],
   "note": "The last three are the limits named in the property. Links are plain conductors without internal fluid."
  },
  {
   "property": "C36",
   "status": "proved",
   "theorems": [
    "Gunns.Props.c36_history",
    "Gunns.Props.c36_new",
    "Gunns.Props.c36_values",
    "Gunns.Props.c36_slope",
    "Gunns.Props.c36_accepts",
    "Gunns.Props.c36_reinit_out_of_bounds"
   ],
   "note": "The last theorem is the limit named in the property."
  },
  {
   "property": "C37",
   "status": "partial",
   "theorems": [
    "Gunns.Props.c37_exact",
    "Gunns.Props.c37_history_partial",
    "Gunns.Props.c37_reverse_partial",
    "Gunns.Props.c37_round_trip",
    "Gunns.Props.c37_even_wrong",
    "Gunns.Props.c37_flag",
    "Gunns.Props.c37_refused_destroy",
    "Gunns.Props.c37_reverse_wrong"
   ],
   "note": "False as stated for decreasing variables with an even number of points (c37_even_wrong; c37_exact says what is computed for every table) and for reverse interpolation when the first stored entry is the only greatest one (c37_reverse_wrong)."
  },
  {
   "property": "C38",
   "status": "proved",
   "theorems": [
    "Gunns.Props.c38_outcomes",
    "Gunns.Props.c38_bracket",
    "Gunns.Props.c38_root",
    "Gunns.Props.c38_inside",
    "Gunns.Props.c38_trial",
    "Gunns.Props.c38_linear",
    "Gunns.Props.c38_gives_up"
   ],
   "note": "The last theorem is the limit named in the property. The virtual evaluate is modelled as a function of its argument."
  },
  {
   "property": "C39",
   "status": "partial",
   "theorems": [
    "Gunns.Props.c39_trips_exactly",
    "Gunns.Props.c39_resets_exactly",
    "Gunns.Props.c39_flags",
    "Gunns.Props.c39_position",
    "Gunns.Props.c39_over_current_latches",
    "Gunns.Props.c39_tripped_is_open_partial",
    "Gunns.Props.c39_closed_after_fail_closed",
    "Gunns.Props.c39_closed_after_one_reset",
    "Gunns.Props.c39_limits_ordered",
    "Gunns.Props.c39_no_chatter",
    "Gunns.Props.c39_open_command",
    "Gunns.Props.c39_open_command_waits"
   ],
   "note": "That a tripped switch is open is proved for histories without malfunctions and limit changes and ordered limits; the witnesses c39_closed_after_fail_closed and c39_closed_after_one_reset show it false otherwise. The rest is proved for all histories."
  },
  {
   "property": "C40",
   "status": "proved",
   "theorems": [
    "Gunns.Props.c40_lowest_priority_first",
    "Gunns.Props.c40_accepted_without_fault"
   ],
   "note": "User loads and their fuses are not part of the switch model; sensors are arbitrary functions of the state of links and nodes."
  },
  {
   "property": "C41",
   "status": "proved",
   "theorems": [
    "Gunns.Props.c41_linear_algebra",
    "Gunns.Props.c41_rotation",
    "Gunns.Props.c41_sequence",
    "Gunns.Props.c41_angles_recovered",
    "Gunns.Props.c41_attitude_recovered",
    "Gunns.Props.c41_normalize",
    "Gunns.Props.c41_normalize_vector",
    "Gunns.Props.c41_create",
    "Gunns.Props.c41_never_refused",
    "Gunns.Props.c41_matrix_quaternion",
    "Gunns.Props.c41_rates"
   ],
   "note": "Over the reals; atan2 is the argument of a complex number. Rounding is not modelled."
  },
  {
   "property": "C42",
   "status": "partial",
   "theorems": [
    "Gunns.Props.c42_refuses",
    "Gunns.Props.c42_history",
    "Gunns.Props.c42_newton",
    "Gunns.Props.c42_rotation_partial",
    "Gunns.Props.c42_centred",
    "Gunns.Props.c42_offset_wrong",
    "Gunns.Props.c42_valid_throws",
    "Gunns.Props.c42_failure_forgotten",
    "Gunns.Props.c42_stale_wrong"
   ],
   "note": "Euler's equation is proved with the centre of mass at the origin; c42_rotation_partial says what is solved otherwise and c42_offset_wrong that it is not Euler's. c42_valid_throws and c42_stale_wrong are the other two failures named in the property."
  },
  {
   "property": "C43",
   "status": "partial",
   "theorems": [
    "Gunns.Props.c43_fifo_partial",
    "Gunns.Props.c43_accounting",
    "Gunns.Props.c43_remove_alone",
    "Gunns.Props.c43_uninitialized",
    "Gunns.Props.c43_size_overflow",
    "Gunns.Props.c43_two_consumers_wrong",
    "Gunns.Props.c43_false_not_empty"
   ],
   "note": "Proved for one consumer and any number of producers; c43_two_consumers_wrong shows the claim false for two consumers, for every capacity. Reads and writes of one pointer are taken to be atomic."
  },
  {
   "property": "C44",
   "status": "partial",
   "theorems": [
    "Gunns.Props.c44_exact",
    "Gunns.Props.c44_rate_limit_partial",
    "Gunns.Props.c44_none_wrongly",
    "Gunns.Props.c44_bounded",
    "Gunns.Props.c44_counters",
    "Gunns.Props.c44_history_one",
    "Gunns.Props.c44_first_kept",
    "Gunns.Props.c44_purge_wrong",
    "Gunns.Props.c44_types",
    "Gunns.Props.c44_settings",
    "Gunns.Props.c44_key",
    "Gunns.Props.c44_key_collision"
   ],
   "note": "c44_history_one, c44_purge_wrong and c44_key_collision are the failures named in the property; the rate is proved while the map need not purge."
  },
  {
   "property": "C45",
   "status": "partial",
   "theorems": [
    "Gunns.Props.c45_soc_range",
    "Gunns.Props.c45_init",
    "Gunns.Props.c45_charge_balance_partial",
    "Gunns.Props.c45_charge_bound",
    "Gunns.Props.c45_voltage",
    "Gunns.Props.c45_outputs",
    "Gunns.Props.c45_conductance",
    "Gunns.Props.c45_resistance",
    "Gunns.Props.c45_runaway",
    "Gunns.Props.c45_runaway_over",
    "Gunns.Props.c45_runaway_heat",
    "Gunns.Props.c45_sequence",
    "Gunns.Props.c45_sequence_duration",
    "Gunns.Props.c45_removal_partial",
    "Gunns.Props.c45_dead",
    "Gunns.Props.c45_dead_wrong",
    "Gunns.Props.c45_charge_created",
    "Gunns.Props.c45_empty_sources",
    "Gunns.Props.c45_open_heats",
    "Gunns.Props.c45_removal_wrong"
   ],
   "note": "The last six are the failures named in the property. The balance is proved while no cell is empty, full, shorted or burning; the course of the runaway for a constant voltage table."
  },
  {
   "property": "C46",
   "status": "partial",
   "theorems": [
    "Gunns.Props.c46_triangle",
    "Gunns.Props.c46_triangle_small",
    "Gunns.Props.c46_sphere",
    "Gunns.Props.c46_sphere_point",
    "Gunns.Props.c46_spheroid",
    "Gunns.Props.c46_cylinder_parallel",
    "Gunns.Props.c46_cylinder_sound",
    "Gunns.Props.c46_cylinder_partial",
    "Gunns.Props.c46_triangle_missed",
    "Gunns.Props.c46_cylinder_inside",
    "Gunns.Props.c46_cylinder_end",
    "Gunns.Props.c46_cylinder_outside"
   ],
   "note": "Triangle, ball and ellipsoid are settled; the cylinder is right under the hypotheses of c46_cylinder_partial. The last four are the failures named in the property."
  },
  {
   "property": "C47",
   "status": "proved",
   "theorems": [
    "Gunns.Props.c47_solution",
    "Gunns.Props.c47_outcome",
    "Gunns.Props.c47_delta",
    "Gunns.Props.c47_value",
    "Gunns.Props.c47_requests",
    "Gunns.Props.c47_response",
    "Gunns.Props.c47_bounds",
    "Gunns.Props.c47_lost"
   ],
   "note": "The last theorem is the limit named in the property. Solution by islands gives the same potentials (C11); GPU solvers are not modelled."
  },
  {
   "property": "C48",
   "status": "partial",
   "theorems": [
    "Gunns.Props.c48_state",
    "Gunns.Props.c48_mass",
    "Gunns.Props.c48_leak",
    "Gunns.Props.c48_stamp",
    "Gunns.Props.c48_plateau",
    "Gunns.Props.c48_step",
    "Gunns.Props.c48_phase",
    "Gunns.Props.c48_balance_partial",
    "Gunns.Props.c48_init",
    "Gunns.Props.c48_perpetual"
   ],
   "note": "The balance is proved while the phase stays the same; c48_step gives the exact error of every phase change and c48_perpetual is the failure named in the property."
  },
  {
   "property": "C49",
   "status": "proved",
   "theorems": [
    "Gunns.Props.c49_hold",
    "Gunns.Props.c49_update",
    "Gunns.Props.c49_history",
    "Gunns.Props.c49_limits",
    "Gunns.Props.c49_intervals",
    "Gunns.Props.c49_period",
    "Gunns.Props.c49_split",
    "Gunns.Props.c49_init",
    "Gunns.Props.c49_ramp",
    "Gunns.Props.c49_windup"
   ],
   "note": "The last two are the deviations named in the property."
  },
  {
   "property": "C50",
   "status": "proved",
   "theorems": [
    "Gunns.Props.c50_init",
    "Gunns.Props.c50_counters",
    "Gunns.Props.c50_result",
    "Gunns.Props.c50_best",
    "Gunns.Props.c50_shutdown",
    "Gunns.Props.c50_monotone",
    "Gunns.Props.c50_range",
    "Gunns.Props.c50_move",
    "Gunns.Props.c50_constraint",
    "Gunns.Props.c50_late_first",
    "Gunns.Props.c50_late_swap",
    "Gunns.Props.c50_constraint_wrong"
   ],
   "note": "The last three are the failures named in the property."
  },
  {
   "property": "C51",
   "status": "proved",
   "theorems": [
    "Gunns.Props.c51_init",
    "Gunns.Props.c51_counters",
    "Gunns.Props.c51_result",
    "Gunns.Props.c51_step",
    "Gunns.Props.c51_serial",
    "Gunns.Props.c51_range",
    "Gunns.Props.c51_stall",
    "Gunns.Props.c51_direction",
    "Gunns.Props.c51_affine",
    "Gunns.Props.c51_frozen",
    "Gunns.Props.c51_report",
    "Gunns.Props.c51_overshoot",
    "Gunns.Props.c51_report_wrong",
    "Gunns.Props.c51_late",
    "Gunns.Props.c51_unset"
   ],
   "note": "c51_frozen, c51_report and the last four are the failures named in the property."
  },
  {
   "property": "C52",
   "status": "proved",
   "theorems": [
    "Gunns.Props.c52_init",
    "Gunns.Props.c52_init_powered",
    "Gunns.Props.c52_init_dual",
    "Gunns.Props.c52_position",
    "Gunns.Props.c52_fluid",
    "Gunns.Props.c52_drive",
    "Gunns.Props.c52_travel",
    "Gunns.Props.c52_transit",
    "Gunns.Props.c52_power",
    "Gunns.Props.c52_speed_eot",
    "Gunns.Props.c52_openclose",
    "Gunns.Props.c52_openclose_reversed",
    "Gunns.Props.c52_toggle_edges",
    "Gunns.Props.c52_toggle_sample",
    "Gunns.Props.c52_toggle_flip",
    "Gunns.Props.c52_toggle_never",
    "Gunns.Props.c52_target",
    "Gunns.Props.c52_target_reversed",
    "Gunns.Props.c52_tvalve",
    "Gunns.Props.c52_dual"
   ],
   "note": "c52_openclose, c52_openclose_reversed, c52_toggle_flip, c52_toggle_never and c52_target_reversed state the failures named in the property."
  },
  {
   "property": "C53",
   "status": "proved",
   "theorems": [
    "Gunns.Props.c53_exclusive",
    "Gunns.Props.c53_others",
    "Gunns.Props.c53_update",
    "Gunns.Props.c53_update_total",
    "Gunns.Props.c53_throw",
    "Gunns.Props.c53_throw_stays",
    "Gunns.Props.c53_direct",
    "Gunns.Props.c53_direct_none",
    "Gunns.Props.c53_rounds",
    "Gunns.Props.c53_port",
    "Gunns.Props.c53_ends",
    "Gunns.Props.c53_restart",
    "Gunns.Props.c53_restart_ends",
    "Gunns.Props.c53_seal",
    "Gunns.Props.c53_stranded"
   ],
   "note": "The last theorem is the failure named in the property; c53_throw_stays is the other. Plugs are assumed to list no socket twice."
  },
  {
   "property": "C54",
   "status": "proved",
   "theorems": [
    "Gunns.Props.Gunns.Props.c54_accepted_output",
    "Gunns.Props.Gunns.Props.c54_accepted_input",
    "Gunns.Props.Gunns.Props.c54_ground",
    "Gunns.Props.c54_off",
    "Gunns.Props.c54_source_power",
    "Gunns.Props.c54_limits_current",
    "Gunns.Props.c54_diode",
    "Gunns.Props.c54_power_setpoint",
    "Gunns.Props.c54_only_draws",
    "Gunns.Props.c54_draws_load",
    "Gunns.Props.c54_balance",
    "Gunns.Props.c54_rejections",
    "Gunns.Props.c54_trips",
    "Gunns.Props.c54_trips_current",
    "Gunns.Props.c54_trips_voltage",
    "Gunns.Props.c54_trips_input",
    "Gunns.Props.c54_fresh",
    "Gunns.Props.c54_blocked",
    "Gunns.Props.c54_undervoltage",
    "Gunns.Props.c54_exhausted"
   ],
   "note": "The last three are the failures named in the property. Sensors are noiseless functions; float casts are left out."
  },
  {
   "property": "C55",
   "status": "proved",
   "theorems": [
    "Gunns.Props.Gunns.Props.c55_reset",
    "Gunns.Props.c55_no_stale",
    "Gunns.Props.c55_stuck",
    "Gunns.Props.c55_off_rejects",
    "Gunns.Props.c55_spare_input",
    "Gunns.Props.c55_spare_output",
    "Gunns.Props.c55_spare_polled"
   ],
   "note": "All but the first are the failures named in the property; a sample network shows each of them with the solver."
  },
  {
   "property": "C56",
   "status": "proved",
   "theorems": [
    "Gunns.Props.c56_balance",
    "Gunns.Props.c56_ahead",
    "Gunns.Props.c56_order",
    "Gunns.Props.c56_transfer",
    "Gunns.Props.c56_history",
    "Gunns.Props.c56_no_volume",
    "Gunns.Props.c56_index",
    "Gunns.Props.c56_no_volume_lost",
    "Gunns.Props.c56_overflow_creates",
    "Gunns.Props.c56_dilution_erases",
    "Gunns.Props.c56_removal_clipped",
    "Gunns.Props.c56_order_small",
    "Gunns.Props.c56_small_inflow"
   ],
   "note": "The last six are the limits named in the property."
  },
  {
   "property": "C57",
   "status": "proved",
   "theorems": [
    "Gunns.Props.c57_stoichiometry",
    "Gunns.Props.c57_elements",
    "Gunns.Props.c57_elements_all",
    "Gunns.Props.c57_available",
    "Gunns.Props.c57_solids",
    "Gunns.Props.c57_inventory",
    "Gunns.Props.c57_delivery",
    "Gunns.Props.c57_efficiency",
    "Gunns.Props.c57_setup",
    "Gunns.Props.c57_atoms",
    "Gunns.Props.c57_accepts",
    "Gunns.Props.c57_weights",
    "Gunns.Props.c57_mass_close",
    "Gunns.Props.c57_heat_sum",
    "Gunns.Props.c57_heat",
    "Gunns.Props.c57_source",
    "Gunns.Props.c57_heat_reversed",
    "Gunns.Props.c57_stale_source",
    "Gunns.Props.c57_mass_gained"
   ],
   "note": "The last three are the failures named in the property."
  },
  {
   "property": "C58",
   "status": "proved",
   "theorems": [
    "Gunns.Props.c58_pass",
    "Gunns.Props.c58_history",
    "Gunns.Props.c58_source",
    "Gunns.Props.c58_pure",
    "Gunns.Props.c58_setup",
    "Gunns.Props.c58_misrouted",
    "Gunns.Props.c58_shared",
    "Gunns.Props.c58_lost",
    "Gunns.Props.c58_beyond",
    "Gunns.Props.c58_all_taken"
   ],
   "note": "The last five are the failures named in the property. Trace compounds are left out."
  },
  {
   "property": "C59",
   "status": "proved",
   "theorems": [
    "Gunns.Props.c59_days",
    "Gunns.Props.c59_reach",
    "Gunns.Props.c59_order",
    "Gunns.Props.c59_additive",
    "Gunns.Props.c59_days_in_month",
    "Gunns.Props.c59_valid",
    "Gunns.Props.c59_seconds",
    "Gunns.Props.c59_string",
    "Gunns.Props.c59_sgmt",
    "Gunns.Props.c59_round_trip",
    "Gunns.Props.c59_count",
    "Gunns.Props.c59_seconds_accepted",
    "Gunns.Props.c59_year_end",
    "Gunns.Props.c59_two_years",
    "Gunns.Props.c59_bad_month",
    "Gunns.Props.c59_addition"
   ],
   "note": "The last five are the failures named in the property."
  },
  {
   "property": "C60",
   "status": "proved",
   "theorems": [
    "Gunns.Props.c60_init",
    "Gunns.Props.c60_modes",
    "Gunns.Props.c60_sense",
    "Gunns.Props.c60_accuracy",
    "Gunns.Props.c60_exact",
    "Gunns.Props.c60_two_noises",
    "Gunns.Props.c60_resolution",
    "Gunns.Props.c60_range",
    "Gunns.Props.c60_range_history",
    "Gunns.Props.c60_stuck",
    "Gunns.Props.c60_drift",
    "Gunns.Props.c60_drift_end",
    "Gunns.Props.c60_truth",
    "Gunns.Props.c60_switch",
    "Gunns.Props.c60_valve",
    "Gunns.Props.c60_limit",
    "Gunns.Props.c60_noise",
    "Gunns.Props.c60_drift_kept",
    "Gunns.Props.c60_undefined",
    "Gunns.Props.c60_stale_truth"
   ],
   "note": "The last three are the failures named in the property."
  },
  {
   "property": "C61",
   "status": "proved",
   "theorems": [
    "Gunns.Props.c61_dispatch",
    "Gunns.Props.c61_units",
    "Gunns.Props.c61_back",
    "Gunns.Props.c61_paths",
    "Gunns.Props.c61_decibels",
    "Gunns.Props.c61_percent",
    "Gunns.Props.c61_ratios",
    "Gunns.Props.c61_older",
    "Gunns.Props.c61_no_power",
    "Gunns.Props.c61_upside_down",
    "Gunns.Props.c61_rankine"
   ],
   "note": "The last three are the failures named in the property."
  },
  {
   "property": "C62",
   "status": "proved",
   "theorems": [
    "Gunns.Props.c62_init",
    "Gunns.Props.c62_sensors",
    "Gunns.Props.c62_setpoints",
    "Gunns.Props.c62_since",
    "Gunns.Props.c62_actual",
    "Gunns.Props.c62_malf_setpoints",
    "Gunns.Props.c62_band",
    "Gunns.Props.c62_band_and",
    "Gunns.Props.c62_off_keeps_on"
   ],
   "note": "The last is the failure named in the property."
  },
  {
   "property": "C63",
   "status": "proved",
   "theorems": [
    "Gunns.Props.c63_init",
    "Gunns.Props.c63_slopes",
    "Gunns.Props.c63_play",
    "Gunns.Props.c63_between",
    "Gunns.Props.c63_resume",
    "Gunns.Props.c63_range",
    "Gunns.Props.c63_rate",
    "Gunns.Props.c63_closed",
    "Gunns.Props.c63_regulator_init",
    "Gunns.Props.c63_regulator_play",
    "Gunns.Props.c63_regulator_resume",
    "Gunns.Props.c63_regulator_range",
    "Gunns.Props.c63_conductivity",
    "Gunns.Props.c63_start_lost"
   ],
   "note": "The last is the failure named in the property."
  },
  {
   "property": "C64",
   "status": "proved",
   "theorems": [
    "Gunns.Props.c64_symmetric",
    "Gunns.Props.c64_law",
    "Gunns.Props.c64_round_trip",
    "Gunns.Props.c64_monotone",
    "Gunns.Props.c64_matrix",
    "Gunns.Props.c64_conductor",
    "Gunns.Props.c64_reverse",
    "Gunns.Props.c64_valve",
    "Gunns.Props.c64_tuned",
    "Gunns.Props.c64_leak",
    "Gunns.Props.c64_tuned_shut",
    "Gunns.Props.c64_leak_never",
    "Gunns.Props.c64_valve_tuned"
   ],
   "note": "The last three are failures named in the property; that the tuned flow is missed for different weights is in the equation of c64_tuned."
  },
  {
   "property": "C65",
   "status": "proved",
   "theorems": [
    "Gunns.Props.c65_accepted",
    "Gunns.Props.c65_ramp",
    "Gunns.Props.c65_step",
    "Gunns.Props.c65_range",
    "Gunns.Props.c65_settles",
    "Gunns.Props.c65_monotone",
    "Gunns.Props.c65_paths",
    "Gunns.Props.c65_three_range",
    "Gunns.Props.c65_three_settles",
    "Gunns.Props.c65_three_target",
    "Gunns.Props.c65_open_b_unused",
    "Gunns.Props.c65_flips"
   ],
   "note": "The last two are the failures named in the property."
  },
  {
   "property": "C66",
   "status": "proved",
   "theorems": [
    "Gunns.Props.c66_amounts",
    "Gunns.Props.c66_round_trip",
    "Gunns.Props.c66_pressure",
    "Gunns.Props.c66_nothing",
    "Gunns.Props.c66_normalize",
    "Gunns.Props.c66_mix",
    "Gunns.Props.c66_map",
    "Gunns.Props.c66_transform",
    "Gunns.Props.c66_full",
    "Gunns.Props.c66_same",
    "Gunns.Props.c66_proportions",
    "Gunns.Props.c66_moles_lost"
   ],
   "note": "The last is the failure named in the property."
  },
  {
   "property": "C67",
   "status": "proved",
   "theorems": [
    "Gunns.Props.c67_state",
    "Gunns.Props.c67_flow",
    "Gunns.Props.c67_same_state",
    "Gunns.Props.c67_same_flow",
    "Gunns.Props.c67_volume",
    "Gunns.Props.c67_supply_limit",
    "Gunns.Props.c67_no_overshoot",
    "Gunns.Props.c67_capacitance",
    "Gunns.Props.c67_back_energy",
    "Gunns.Props.c67_cold",
    "Gunns.Props.c67_mixed",
    "Gunns.Props.c67_lost"
   ],
   "note": "The last four are the failures named in the property."
  },
  {
   "property": "C68",
   "status": "proved",
   "theorems": [
    "Gunns.Props.c68_radiation",
    "Gunns.Props.c68_radiation_flow",
    "Gunns.Props.c68_heat",
    "Gunns.Props.c68_queues",
    "Gunns.Props.c68_energy",
    "Gunns.Props.c68_second_law",
    "Gunns.Props.c68_source",
    "Gunns.Props.c68_source_flux",
    "Gunns.Props.c68_panel",
    "Gunns.Props.c68_multi_panel",
    "Gunns.Props.c68_peltier",
    "Gunns.Props.c68_couples",
    "Gunns.Props.c68_balance",
    "Gunns.Props.c68_balance_constant",
    "Gunns.Props.c68_plates",
    "Gunns.Props.c68_device",
    "Gunns.Props.c68_equal",
    "Gunns.Props.c68_heat_lost",
    "Gunns.Props.c68_source_lost",
    "Gunns.Props.c68_panel_nan",
    "Gunns.Props.c68_unbalanced",
    "Gunns.Props.c68_plates_exceeded",
    "Gunns.Props.c68_jump"
   ],
   "note": "The last seven are the failures named in the property."
  },
  {
   "property": "C69",
   "status": "proved",
   "theorems": [
    "Gunns.Props.c69_regime",
    "Gunns.Props.c69_laminar",
    "Gunns.Props.c69_defined",
    "Gunns.Props.c69_darcy",
    "Gunns.Props.c69_nusselt",
    "Gunns.Props.c69_coefficient",
    "Gunns.Props.c69_convective",
    "Gunns.Props.c69_exchanger",
    "Gunns.Props.c69_reversed",
    "Gunns.Props.c69_division",
    "Gunns.Props.c69_override",
    "Gunns.Props.c69_delta",
    "Gunns.Props.c69_degraded",
    "Gunns.Props.c69_dynamic",
    "Gunns.Props.c69_dynamic_degraded",
    "Gunns.Props.c69_expansion",
    "Gunns.Props.c69_tuned",
    "Gunns.Props.c69_not_colebrook",
    "Gunns.Props.c69_pole",
    "Gunns.Props.c69_no_heat",
    "Gunns.Props.c69_delta_reversed",
    "Gunns.Props.c69_tuned_equal"
   ],
   "note": "The last five are the failures named in the property."
  },
  {
   "property": "C70",
   "status": "proved",
   "theorems": [
    "Gunns.Props.c70_accepted",
    "Gunns.Props.c70_fick",
    "Gunns.Props.c70_direction",
    "Gunns.Props.c70_kinetic",
    "Gunns.Props.c70_swap",
    "Gunns.Props.c70_bulk",
    "Gunns.Props.c70_conduction",
    "Gunns.Props.c70_heat_conserved",
    "Gunns.Props.c70_when",
    "Gunns.Props.c70_blind",
    "Gunns.Props.c70_unlimited",
    "Gunns.Props.c70_colder",
    "Gunns.Props.c70_negative_length"
   ],
   "note": "The last four are the failures named in the property. Trace compounds are left out."
  },
  {
   "property": "C71",
   "status": "proved",
   "theorems": [
    "Gunns.Props.c71_accepted",
    "Gunns.Props.c71_isotherm_vacuum",
    "Gunns.Props.c71_isotherm_monotone",
    "Gunns.Props.c71_isotherm_saturation",
    "Gunns.Props.c71_loading",
    "Gunns.Props.c71_toward",
    "Gunns.Props.c71_geometric",
    "Gunns.Props.c71_blocking",
    "Gunns.Props.c71_malfunction",
    "Gunns.Props.c71_block_law",
    "Gunns.Props.c71_register",
    "Gunns.Props.c71_stream",
    "Gunns.Props.c71_conserved",
    "Gunns.Props.c71_offgas",
    "Gunns.Props.c71_heat",
    "Gunns.Props.c71_bulk_and_trace",
    "Gunns.Props.c71_saturation",
    "Gunns.Props.c71_carries",
    "Gunns.Props.c71_bed",
    "Gunns.Props.c71_reported",
    "Gunns.Props.c71_pressures",
    "Gunns.Props.c71_isotherm_inverted",
    "Gunns.Props.c71_silica_hot",
    "Gunns.Props.c71_silica_exponent",
    "Gunns.Props.c71_overshoot",
    "Gunns.Props.c71_dry_block",
    "Gunns.Props.c71_offgas_lost",
    "Gunns.Props.c71_trickle",
    "Gunns.Props.c71_porosity"
   ],
   "note": "The last eight are the failures named in the property. The convective heat and temperatures of a segment are given (C69)."
  },
  {
   "property": "C72",
   "status": "proved",
   "theorems": [
    "Gunns.Props.c72_values",
    "Gunns.Props.c72_returned",
    "Gunns.Props.c72_backward",
    "Gunns.Props.c72_kept",
    "Gunns.Props.c72_linear",
    "Gunns.Props.c72_quadratic",
    "Gunns.Props.c72_repeated",
    "Gunns.Props.c72_from_above",
    "Gunns.Props.c72_from_below",
    "Gunns.Props.c72_constant",
    "Gunns.Props.c72_ill_placed"
   ],
   "note": "The last is the failure named in the property."
  },
  {
   "property": "C73",
   "status": "proved",
   "theorems": [
    "Gunns.Props.c73_potential",
    "Gunns.Props.c73_affinity",
    "Gunns.Props.c73_source",
    "Gunns.Props.c73_root",
    "Gunns.Props.c73_crossing",
    "Gunns.Props.c73_default",
    "Gunns.Props.c73_power",
    "Gunns.Props.c73_check",
    "Gunns.Props.c73_cavitation",
    "Gunns.Props.c73_cavitates",
    "Gunns.Props.c73_recovers",
    "Gunns.Props.c73_head",
    "Gunns.Props.c73_head_loop",
    "Gunns.Props.c73_linearization",
    "Gunns.Props.c73_power_negative",
    "Gunns.Props.c73_pump_backflow",
    "Gunns.Props.c73_reverse_noise"
   ],
   "note": "The last four are the failures named in the property."
  },
  {
   "property": "C74",
   "status": "proved",
   "theorems": [
    "Gunns.Props.c74_shaft_accepted",
    "Gunns.Props.c74_load",
    "Gunns.Props.c74_speed",
    "Gunns.Props.c74_converges",
    "Gunns.Props.c74_stops",
    "Gunns.Props.c74_stiction",
    "Gunns.Props.c74_energy",
    "Gunns.Props.c74_turbine_accepted",
    "Gunns.Props.c74_blend",
    "Gunns.Props.c74_map",
    "Gunns.Props.c74_monotone",
    "Gunns.Props.c74_delivers",
    "Gunns.Props.c74_no_backflow",
    "Gunns.Props.c74_turbine_power",
    "Gunns.Props.c74_displaces",
    "Gunns.Props.c74_moves",
    "Gunns.Props.c74_pump_power",
    "Gunns.Props.c74_liquid",
    "Gunns.Props.c74_jam_spins",
    "Gunns.Props.c74_jam_drives",
    "Gunns.Props.c74_swings",
    "Gunns.Props.c74_never_starts",
    "Gunns.Props.c74_swapped",
    "Gunns.Props.c74_open",
    "Gunns.Props.c74_not_similar",
    "Gunns.Props.c74_driven",
    "Gunns.Props.c74_stale"
   ],
   "note": "The last nine are the failures named in the property."
  },
  {
   "property": "C75",
   "status": "proved",
   "theorems": [
    "Gunns.Props.c75_principal_positive",
    "Gunns.Props.c75_principal_exact",
    "Gunns.Props.c75_principal_negative",
    "Gunns.Props.c75_other_branch",
    "Gunns.Props.c75_other_near_zero",
    "Gunns.Props.c75_throws",
    "Gunns.Props.c75_special",
    "Gunns.Props.c75_fast_accuracy",
    "Gunns.Props.c75_fast_fallback",
    "Gunns.Props.c75_fast_accuracy_claim_fails",
    "Gunns.Props.c75_fast_not_monotone"
   ],
   "note": "The last two are the failures named in the property. The accuracy of the fitted polynomials in the middle ranges is not claimed."
  },
  {
   "property": "C76",
   "status": "proved",
   "theorems": [
    "Gunns.Props.c76_solves",
    "Gunns.Props.c76_inverse",
    "Gunns.Props.c76_fast_error",
    "Gunns.Props.c76_fast_small",
    "Gunns.Props.c76_derived",
    "Gunns.Props.c76_mpp",
    "Gunns.Props.c76_power",
    "Gunns.Props.c76_ends",
    "Gunns.Props.c76_light",
    "Gunns.Props.c76_temperature",
    "Gunns.Props.c76_dark",
    "Gunns.Props.c76_cold_dim_dead",
    "Gunns.Props.c76_hot_dim_current",
    "Gunns.Props.c76_cold_throws",
    "Gunns.Props.c76_not_monotone"
   ],
   "note": "The last four are the failures named in the property."
  },
  {
   "property": "C77",
   "status": "proved",
   "theorems": [
    "Gunns.Props.Gunns.Props.c77_degrade",
    "Gunns.Props.c77_active_cells",
    "Gunns.Props.c77_active_range",
    "Gunns.Props.c77_update_proper",
    "Gunns.Props.c77_predict_lines",
    "Gunns.Props.c77_predict_out",
    "Gunns.Props.c77_predict_decreasing",
    "Gunns.Props.c77_predict_range",
    "Gunns.Props.c77_load_voltage",
    "Gunns.Props.c77_load_conductance",
    "Gunns.Props.c77_load_power",
    "Gunns.Props.c77_maximum_power",
    "Gunns.Props.c77_string2_points",
    "Gunns.Props.c77_string2_load_power",
    "Gunns.Props.c77_section_flux",
    "Gunns.Props.c77_ramp",
    "Gunns.Props.c77_flux_malf",
    "Gunns.Props.c77_dark_string_power",
    "Gunns.Props.c77_shade_squared"
   ],
   "note": "The last two are the failures named in the property."
  },
  {
   "property": "C78",
   "status": "proved",
   "theorems": [
    "Gunns.Props.c78_points",
    "Gunns.Props.c78_equal_strings",
    "Gunns.Props.c78_mpp",
    "Gunns.Props.c78_mpp_global",
    "Gunns.Props.c78_open_flux",
    "Gunns.Props.c78_confirm",
    "Gunns.Props.c78_predict_load",
    "Gunns.Props.c78_predict_out",
    "Gunns.Props.c78_load_power_short",
    "Gunns.Props.c78_load_power_open",
    "Gunns.Props.c78_short_flux",
    "Gunns.Props.c78_sides",
    "Gunns.Props.c78_mpp_not_global"
   ],
   "note": "The last three are the failures named in the property (the second of them also has that no step is rejected twice)."
  },
  {
   "property": "C79",
   "status": "proved",
   "theorems": [
    "Gunns.Props.c79_conv_step",
    "Gunns.Props.c79_conv_rejections",
    "Gunns.Props.c79_conv_rejections_twelve",
    "Gunns.Props.c79_conv_accepted",
    "Gunns.Props.c79_conv_defined",
    "Gunns.Props.c79_conv_curve",
    "Gunns.Props.c79_conv_sag",
    "Gunns.Props.c79_conv_short_lossless",
    "Gunns.Props.c79_conv_waste",
    "Gunns.Props.c79_conv_max_current",
    "Gunns.Props.c79_conv_short_overdraw"
   ],
   "note": "The last one is the failure named in the property."
  },
  {
   "property": "C80",
   "status": "proved",
   "theorems": [
    "Gunns.Props.Gunns.Props.c80_output",
    "Gunns.Props.Gunns.Props.c80_order",
    "Gunns.Props.Gunns.Props.c80_default_order",
    "Gunns.Props.Gunns.Props.c80_load",
    "Gunns.Props.Gunns.Props.c80_step",
    "Gunns.Props.Gunns.Props.c80_run_fresh",
    "Gunns.Props.Gunns.Props.c80_initial",
    "Gunns.Props.Gunns.Props.c80_rejections",
    "Gunns.Props.Gunns.Props.c80_accepted",
    "Gunns.Props.Gunns.Props.c80_power",
    "Gunns.Props.Gunns.Props.c80_equal_strings",
    "Gunns.Props.Gunns.Props.c80_balance",
    "Gunns.Props.Gunns.Props.c80_overdraw",
    "Gunns.Props.Gunns.Props.c80_back_voltage",
    "Gunns.Props.Gunns.Props.c80_stale_waste"
   ],
   "note": "The failures named in the statement are proved: c80_overdraw is a concrete case, c80_back_voltage and c80_stale_waste hold for all values."
  },
  {
   "property": "C81",
   "status": "proved",
   "theorems": [
    "Gunns.Props.Gunns.Props.c81_target",
    "Gunns.Props.Gunns.Props.c81_with_backup",
    "Gunns.Props.Gunns.Props.c81_without_backup",
    "Gunns.Props.Gunns.Props.c81_step",
    "Gunns.Props.Gunns.Props.c81_confirm",
    "Gunns.Props.Gunns.Props.c81_switches",
    "Gunns.Props.Gunns.Props.c81_end",
    "Gunns.Props.Gunns.Props.c81_total_first",
    "Gunns.Props.Gunns.Props.c81_used_up"
   ],
   "note": "The two failures named in the statement are c81_total_first and c81_used_up, both for all values."
  },
  {
   "property": "C82",
   "status": "proved",
   "theorems": [
    "Gunns.Props.Gunns.Props.c82_capacity",
    "Gunns.Props.Gunns.Props.c82_books",
    "Gunns.Props.Gunns.Props.c82_books_run",
    "Gunns.Props.Gunns.Props.c82_law",
    "Gunns.Props.Gunns.Props.c82_mode_law",
    "Gunns.Props.Gunns.Props.c82_source",
    "Gunns.Props.Gunns.Props.c82_stale",
    "Gunns.Props.Gunns.Props.c82_trace",
    "Gunns.Props.Gunns.Props.c82_trace_reverse",
    "Gunns.Props.Gunns.Props.c82_malf"
   ],
   "note": "The failures named in the statement are proved of the code: c82_stale, c82_trace_reverse, c82_malf."
  },
  {
   "property": "C83",
   "status": "proved",
   "theorems": [
    "Gunns.Props.Gunns.Props.c83_books",
    "Gunns.Props.Gunns.Props.c83_rate",
    "Gunns.Props.Gunns.Props.c83_taper",
    "Gunns.Props.Gunns.Props.c83_capacity",
    "Gunns.Props.Gunns.Props.c83_transport",
    "Gunns.Props.Gunns.Props.c83_trace_pass",
    "Gunns.Props.Gunns.Props.c83_trace_only",
    "Gunns.Props.Gunns.Props.c83_trace_stale",
    "Gunns.Props.Gunns.Props.c83_throw",
    "Gunns.Props.Gunns.Props.c83_lost",
    "Gunns.Props.Gunns.Props.c83_desorbs"
   ],
   "note": "The failures named in the statement are proved of the code: c83_trace_pass, c83_trace_only, c83_trace_stale, c83_throw, c83_lost; the exchange that the stream does not see is the case of c83_transport without a net rate, with an example."
  },
  {
   "property": "C84",
   "status": "proved",
   "theorems": [
    "Gunns.Props.Gunns.Props.c84_upstream",
    "Gunns.Props.Gunns.Props.c84_law",
    "Gunns.Props.Gunns.Props.c84_direction",
    "Gunns.Props.Gunns.Props.c84_source",
    "Gunns.Props.Gunns.Props.c84_books",
    "Gunns.Props.Gunns.Props.c84_agree",
    "Gunns.Props.Gunns.Props.c84_heat",
    "Gunns.Props.Gunns.Props.c84_heat_reverse",
    "Gunns.Props.Gunns.Props.c84_heat_port",
    "Gunns.Props.Gunns.Props.c84_level",
    "Gunns.Props.Gunns.Props.c84_grab",
    "Gunns.Props.Gunns.Props.c84_turn",
    "Gunns.Props.Gunns.Props.c84_ground",
    "Gunns.Props.Gunns.Props.c84_flux"
   ],
   "note": "The failures named in the statement are proved of the code: c84_heat_reverse and c84_level for all values, c84_grab and c84_turn are concrete cases."
  },
  {
   "property": "C85",
   "status": "proved",
   "theorems": [
    "Gunns.Props.Gunns.Props.c85_flux",
    "Gunns.Props.Gunns.Props.c85_blocked",
    "Gunns.Props.Gunns.Props.c85_settles",
    "Gunns.Props.Gunns.Props.c85_opens",
    "Gunns.Props.Gunns.Props.c85_filter",
    "Gunns.Props.Gunns.Props.c85_settled",
    "Gunns.Props.Gunns.Props.c85_no_gain",
    "Gunns.Props.Gunns.Props.c85_restart",
    "Gunns.Props.Gunns.Props.c85_back_flow"
   ],
   "note": "The failures named in the statement are proved of the code: c85_no_gain, c85_restart, c85_back_flow."
  },
  {
   "property": "C86",
   "status": "proved",
   "theorems": [
    "Gunns.Props.Gunns.Props.c86_third",
    "Gunns.Props.Gunns.Props.c86_second",
    "Gunns.Props.Gunns.Props.c86_first",
    "Gunns.Props.Gunns.Props.c86_weight",
    "Gunns.Props.Gunns.Props.c86_third_oxygen",
    "Gunns.Props.Gunns.Props.c86_first_oxygen",
    "Gunns.Props.Gunns.Props.c86_first_over",
    "Gunns.Props.Gunns.Props.c86_silent",
    "Gunns.Props.Gunns.Props.c86_stale",
    "Gunns.Props.Gunns.Props.c86_scale",
    "Gunns.Props.Gunns.Props.c86_transition",
    "Gunns.Props.Gunns.Props.c86_moves",
    "Gunns.Props.Gunns.Props.c86_second_over"
   ],
   "note": "The failures named in the statement are proved of the code: c86_second, c86_first, c86_weight, c86_first_over, c86_silent and c86_stale for all values, c86_second_over is a concrete case."
  },
  {
   "property": "C87",
   "status": "proved",
   "theorems": [
    "Gunns.Props.Gunns.Props.c87_stoichiometry",
    "Gunns.Props.Gunns.Props.c87_mass",
    "Gunns.Props.Gunns.Props.c87_gap",
    "Gunns.Props.Gunns.Props.c87_efficiency",
    "Gunns.Props.Gunns.Props.c87_rate",
    "Gunns.Props.Gunns.Props.c87_taken",
    "Gunns.Props.Gunns.Props.c87_full_blockage",
    "Gunns.Props.Gunns.Props.c87_no_limit",
    "Gunns.Props.Gunns.Props.c87_latched",
    "Gunns.Props.Gunns.Props.c87_volts",
    "Gunns.Props.Gunns.Props.c87_dry_start"
   ],
   "note": "The failures named in the statement are proved of the code: c87_gap, c87_full_blockage, c87_no_limit, c87_dry_start."
  },
  {
   "property": "C88",
   "status": "proved",
   "theorems": [
    "Gunns.Props.Gunns.Props.c88_limits",
    "Gunns.Props.Gunns.Props.c88_volume",
    "Gunns.Props.Gunns.Props.c88_stuck",
    "Gunns.Props.Gunns.Props.c88_edit",
    "Gunns.Props.Gunns.Props.c88_phase",
    "Gunns.Props.Gunns.Props.c88_stuck_edit",
    "Gunns.Props.Gunns.Props.c88_zero_edit",
    "Gunns.Props.Gunns.Props.c88_capacitance",
    "Gunns.Props.Gunns.Props.c88_correction",
    "Gunns.Props.Gunns.Props.c88_undamped",
    "Gunns.Props.Gunns.Props.c88_rigid"
   ],
   "note": "The failures named in the statement are proved of the code: c88_undamped, c88_zero_edit, c88_stuck_edit, c88_capacitance."
  },
  {
   "property": "C89",
   "status": "proved",
   "theorems": [
    "Gunns.Props.Gunns.Props.c89_limits",
    "Gunns.Props.Gunns.Props.c89_vent",
    "Gunns.Props.Gunns.Props.c89_feed",
    "Gunns.Props.Gunns.Props.c89_dry",
    "Gunns.Props.Gunns.Props.c89_breakthrough",
    "Gunns.Props.Gunns.Props.c89_short_feed",
    "Gunns.Props.Gunns.Props.c89_ice_from_nothing",
    "Gunns.Props.Gunns.Props.c89_over",
    "Gunns.Props.Gunns.Props.c89_heat_twice",
    "Gunns.Props.Gunns.Props.c89_sign"
   ],
   "note": "The failures named in the statement are proved of the code: c89_short_feed, c89_ice_from_nothing, c89_over, c89_heat_twice, c89_sign."
  },
  {
   "property": "C90",
   "status": "proved",
   "theorems": [
    "Gunns.Props.Gunns.Props.c90_burning",
    "Gunns.Props.Gunns.Props.c90_trace",
    "Gunns.Props.Gunns.Props.c90_out",
    "Gunns.Props.Gunns.Props.c90_stays_out",
    "Gunns.Props.Gunns.Props.c90_source",
    "Gunns.Props.Gunns.Props.c90_source_opposite",
    "Gunns.Props.Gunns.Props.c90_stale",
    "Gunns.Props.Gunns.Props.c90_source_out",
    "Gunns.Props.Gunns.Props.c90_accepted"
   ],
   "note": "The failures named in the statement are proved of the code: c90_trace and c90_burning (blockage), c90_stale, c90_source_opposite, c90_accepted."
  },
  {
   "property": "C91",
   "status": "proved",
   "theorems": [
    "Gunns.Props.Gunns.Props.c91_rate",
    "Gunns.Props.Gunns.Props.c91_bounds",
    "Gunns.Props.Gunns.Props.c91_dry",
    "Gunns.Props.Gunns.Props.c91_mono",
    "Gunns.Props.Gunns.Props.c91_exchange",
    "Gunns.Props.Gunns.Props.c91_pool",
    "Gunns.Props.Gunns.Props.c91_pair",
    "Gunns.Props.Gunns.Props.c91_solution",
    "Gunns.Props.Gunns.Props.c91_accepted"
   ],
   "note": "The failure named in the statement is proved of the code: c91_exchange, with the case c91_solution."
  },
  {
   "property": "C92",
   "status": "proved",
   "theorems": [
    "Gunns.Props.Gunns.Props.c92_held_temp",
    "Gunns.Props.Gunns.Props.c92_timer",
    "Gunns.Props.Gunns.Props.c92_stick_to",
    "Gunns.Props.Gunns.Props.c92_edit_temp",
    "Gunns.Props.Gunns.Props.c92_override",
    "Gunns.Props.Gunns.Props.c92_capacitance",
    "Gunns.Props.Gunns.Props.c92_scale",
    "Gunns.Props.Gunns.Props.c92_limits",
    "Gunns.Props.Gunns.Props.c92_mass",
    "Gunns.Props.Gunns.Props.c92_conserves",
    "Gunns.Props.Gunns.Props.c92_heat",
    "Gunns.Props.Gunns.Props.c92_closed",
    "Gunns.Props.Gunns.Props.c92_open",
    "Gunns.Props.Gunns.Props.c92_no_overshoot",
    "Gunns.Props.Gunns.Props.c92_pressure",
    "Gunns.Props.Gunns.Props.c92_stuck",
    "Gunns.Props.Gunns.Props.c92_ramp",
    "Gunns.Props.Gunns.Props.c92_edit",
    "Gunns.Props.Gunns.Props.c92_one_way",
    "Gunns.Props.Gunns.Props.c92_overshoot",
    "Gunns.Props.Gunns.Props.c92_stuck_leak",
    "Gunns.Props.Gunns.Props.c92_hold_leak",
    "Gunns.Props.Gunns.Props.c92_empty_drains"
   ],
   "note": "The failures named in the statement are proved of the code: c92_mass for the overdraw, c92_one_way for the lost rate, and the cases c92_overshoot, c92_stuck_leak, c92_hold_leak and c92_empty_drains."
  },
  {
   "property": "C93",
   "status": "proved",
   "theorems": [
    "Gunns.Props.Gunns.Props.c93_draws",
    "Gunns.Props.Gunns.Props.c93_throws",
    "Gunns.Props.Gunns.Props.c93_negative",
    "Gunns.Props.Gunns.Props.c93_sealed",
    "Gunns.Props.Gunns.Props.c93_fuse_check",
    "Gunns.Props.Gunns.Props.c93_fuse",
    "Gunns.Props.Gunns.Props.c93_magic",
    "Gunns.Props.Gunns.Props.c93_fuses",
    "Gunns.Props.Gunns.Props.c93_duty",
    "Gunns.Props.Gunns.Props.c93_duty_none",
    "Gunns.Props.Gunns.Props.c93_bus",
    "Gunns.Props.Gunns.Props.c93_bus_limits",
    "Gunns.Props.Gunns.Props.c93_bus_stale",
    "Gunns.Props.Gunns.Props.c93_bus_fuse",
    "Gunns.Props.Gunns.Props.c93_one_fuse",
    "Gunns.Props.Gunns.Props.c93_no_voltage",
    "Gunns.Props.Gunns.Props.c93_small_override"
   ],
   "note": "The failures named in the statement are proved of the code: c93_magic, c93_duty_none, c93_bus_stale and c93_bus_fuse for all values, c93_one_fuse, c93_no_voltage and c93_small_override are concrete cases."
  },
  {
   "property": "C94",
   "status": "proved",
   "theorems": [
    "Gunns.Props.Gunns.Props.c94_no_power",
    "Gunns.Props.Gunns.Props.c94_position",
    "Gunns.Props.Gunns.Props.c94_clears",
    "Gunns.Props.Gunns.Props.c94_limits",
    "Gunns.Props.Gunns.Props.c94_conducts",
    "Gunns.Props.Gunns.Props.c94_resistance",
    "Gunns.Props.Gunns.Props.c94_percent",
    "Gunns.Props.Gunns.Props.c94_percent_divides",
    "Gunns.Props.Gunns.Props.c94_code",
    "Gunns.Props.Gunns.Props.c94_trips",
    "Gunns.Props.Gunns.Props.c94_waits",
    "Gunns.Props.Gunns.Props.c94_holds",
    "Gunns.Props.Gunns.Props.c94_heat",
    "Gunns.Props.Gunns.Props.c94_accepts",
    "Gunns.Props.Gunns.Props.c94_answers",
    "Gunns.Props.Gunns.Props.c94_priority",
    "Gunns.Props.Gunns.Props.c94_order",
    "Gunns.Props.Gunns.Props.c94_latched",
    "Gunns.Props.Gunns.Props.c94_recloses",
    "Gunns.Props.Gunns.Props.c94_ignore_sticks",
    "Gunns.Props.Gunns.Props.c94_failed_closed_stays",
    "Gunns.Props.Gunns.Props.c94_external_confirms",
    "Gunns.Props.Gunns.Props.c94_open_trips"
   ],
   "note": "The failures named in the statement are proved of the code: c94_percent_divides, c94_ignore_sticks, c94_failed_closed_stays, c94_external_confirms and c94_open_trips."
  },
  {
   "property": "C95",
   "status": "proved",
   "theorems": [
    "Gunns.Props.Gunns.Props.c95_short_takes",
    "Gunns.Props.Gunns.Props.c95_short_nonneg",
    "Gunns.Props.Gunns.Props.c95_short_initial",
    "Gunns.Props.Gunns.Props.c95_short_initial_current",
    "Gunns.Props.Gunns.Props.c95_short_negative",
    "Gunns.Props.Gunns.Props.c95_series",
    "Gunns.Props.Gunns.Props.c95_kirchhoff",
    "Gunns.Props.Gunns.Props.c95_open",
    "Gunns.Props.Gunns.Props.c95_no_loads",
    "Gunns.Props.Gunns.Props.c95_matrix",
    "Gunns.Props.Gunns.Props.c95_power",
    "Gunns.Props.Gunns.Props.c95_fuses",
    "Gunns.Props.Gunns.Props.c95_override",
    "Gunns.Props.Gunns.Props.c95_blockage",
    "Gunns.Props.Gunns.Props.c95_blockage_case",
    "Gunns.Props.Gunns.Props.c95_fuse_early",
    "Gunns.Props.Gunns.Props.c95_fuse_overridden",
    "Gunns.Props.Gunns.Props.c95_override_remains",
    "Gunns.Props.Gunns.Props.c95_short_unloaded",
    "Gunns.Props.Gunns.Props.c95_blocked",
    "Gunns.Props.Gunns.Props.c95_override_power",
    "Gunns.Props.Gunns.Props.c95_fuses_once"
   ],
   "note": "Loads that throw are not followed. The failures are part of the statement and shown with witnesses."
  },
  {
   "property": "C96",
   "status": "proved",
   "theorems": [
    "Gunns.Props.Gunns.Props.c96_port",
    "Gunns.Props.Gunns.Props.c96_matrix",
    "Gunns.Props.Gunns.Props.c96_sums",
    "Gunns.Props.Gunns.Props.c96_effective",
    "Gunns.Props.Gunns.Props.c96_flows",
    "Gunns.Props.Gunns.Props.c96_told",
    "Gunns.Props.Gunns.Props.c96_told_switch",
    "Gunns.Props.Gunns.Props.c96_untold",
    "Gunns.Props.Gunns.Props.c96_untold_case",
    "Gunns.Props.Gunns.Props.c96_valid"
   ],
   "note": "The user's port command is not followed. The failure is part of the statement."
  },
  {
   "property": "C97",
   "status": "proved",
   "theorems": [
    "Gunns.Props.Gunns.Props.c97_least",
    "Gunns.Props.Gunns.Props.c97_estimate",
    "Gunns.Props.Gunns.Props.c97_halves",
    "Gunns.Props.Gunns.Props.c97_converges",
    "Gunns.Props.Gunns.Props.c97_conductivity",
    "Gunns.Props.Gunns.Props.c97_fluid_same",
    "Gunns.Props.Gunns.Props.c97_start",
    "Gunns.Props.Gunns.Props.c97_pause",
    "Gunns.Props.Gunns.Props.c97_average",
    "Gunns.Props.Gunns.Props.c97_conserves",
    "Gunns.Props.Gunns.Props.c97_holds",
    "Gunns.Props.Gunns.Props.c97_jitter",
    "Gunns.Props.Gunns.Props.c97_flows",
    "Gunns.Props.Gunns.Props.c97_met",
    "Gunns.Props.Gunns.Props.c97_ports",
    "Gunns.Props.Gunns.Props.c97_fluid_zero"
   ],
   "note": "Mixtures are not followed; of a fluid only its molecular weight is an input. The convergence is for outflows of at least twice DBL_EPSILON, for which no average is snapped to zero."
  },
  {
   "property": "C98",
   "status": "proved",
   "theorems": [
    "Gunns.Props.Gunns.Props.c98_basic",
    "Gunns.Props.Gunns.Props.c98_nothing",
    "Gunns.Props.Gunns.Props.c98_fluid",
    "Gunns.Props.Gunns.Props.c98_parts",
    "Gunns.Props.Gunns.Props.c98_far",
    "Gunns.Props.Gunns.Props.c98_integral",
    "Gunns.Props.Gunns.Props.c98_all",
    "Gunns.Props.Gunns.Props.c98_back"
   ],
   "note": "Readings of the nodes are inputs; the trace compounds, which the code treats as it does the constituents, are not separate."
  },
  {
   "property": "C99",
   "status": "proved",
   "theorems": [
    "Gunns.Props.Gunns.Props.c99_regulated",
    "Gunns.Props.Gunns.Props.c99_droop",
    "Gunns.Props.Gunns.Props.c99_forward",
    "Gunns.Props.Gunns.Props.c99_latch",
    "Gunns.Props.Gunns.Props.c99_ledger",
    "Gunns.Props.Gunns.Props.c99_fifth",
    "Gunns.Props.Gunns.Props.c99_steady",
    "Gunns.Props.Gunns.Props.c99_nodes",
    "Gunns.Props.Gunns.Props.c99_told",
    "Gunns.Props.Gunns.Props.c99_latch_reference",
    "Gunns.Props.Gunns.Props.c99_latch_stays"
   ],
   "note": "Pressures of the solution and the inlet's molecular weight are inputs. The failure is part of the statement."
  },
  {
   "property": "C100",
   "status": "proved",
   "theorems": [
    "Gunns.Props.Gunns.Props.c100_search",
    "Gunns.Props.Gunns.Props.c100_ratio",
    "Gunns.Props.Gunns.Props.c100_nozzle",
    "Gunns.Props.Gunns.Props.c100_seven_fifths",
    "Gunns.Props.Gunns.Props.c100_lost",
    "Gunns.Props.Gunns.Props.c100_burns",
    "Gunns.Props.Gunns.Props.c100_count",
    "Gunns.Props.Gunns.Props.c100_conductance",
    "Gunns.Props.Gunns.Props.c100_thrust"
   ],
   "note": "The combustion model, the mixtures and the exit state of the nozzle are inputs. The failure is part of the statement."
  },
  {
   "property": "C101",
   "status": "proved",
   "theorems": [
    "Gunns.Props.Gunns.Props.c101_sources",
    "Gunns.Props.Gunns.Props.c101_shared",
    "Gunns.Props.Gunns.Props.c101_accepted",
    "Gunns.Props.Gunns.Props.c101_through",
    "Gunns.Props.Gunns.Props.c101_fraction",
    "Gunns.Props.Gunns.Props.c101_exit",
    "Gunns.Props.Gunns.Props.c101_beyond",
    "Gunns.Props.Gunns.Props.c101_buffers",
    "Gunns.Props.Gunns.Props.c101_ledger",
    "Gunns.Props.Gunns.Props.c101_trace",
    "Gunns.Props.Gunns.Props.c101_crossed",
    "Gunns.Props.Gunns.Props.c101_traces_only",
    "Gunns.Props.Gunns.Props.c101_unbalanced"
   ],
   "note": "Flow rates per constituent stand for fluids; temperatures and the conductance of the path are not followed. The failures are part of the statement."
  },
  {
   "property": "C102",
   "status": "proved",
   "theorems": [
    "Gunns.Props.Gunns.Props.c102_round_trip",
    "Gunns.Props.Gunns.Props.c102_copies",
    "Gunns.Props.Gunns.Props.c102_control",
    "Gunns.Props.Gunns.Props.c102_again",
    "Gunns.Props.Gunns.Props.c102_again_other",
    "Gunns.Props.Gunns.Props.c102_third"
   ],
   "note": "Of the node only the mass fractions are followed. The failure is part of the statement."
  },
  {
   "property": "C103",
   "status": "proved",
   "theorems": [
    "Gunns.Props.Gunns.Props.c103_pass",
    "Gunns.Props.Gunns.Props.c103_ledger",
    "Gunns.Props.Gunns.Props.c103_error",
    "Gunns.Props.Gunns.Props.c103_bounds",
    "Gunns.Props.Gunns.Props.c103_node",
    "Gunns.Props.Gunns.Props.c103_free",
    "Gunns.Props.Gunns.Props.c103_overfull",
    "Gunns.Props.Gunns.Props.c103_pressure"
   ],
   "note": "Humidity and composition of the stream are inputs; the flow path itself is that of the conductor. The failures are part of the statement."
  },
  {
   "property": "C104",
   "status": "proved",
   "theorems": [
    "Gunns.Props.Gunns.Props.c104_power",
    "Gunns.Props.Gunns.Props.c104_trip",
    "Gunns.Props.Gunns.Props.c104_pulse",
    "Gunns.Props.Gunns.Props.c104_startup",
    "Gunns.Props.Gunns.Props.c104_control",
    "Gunns.Props.Gunns.Props.c104_phase",
    "Gunns.Props.Gunns.Props.c104_draw",
    "Gunns.Props.Gunns.Props.c104_override"
   ],
   "note": "Resistance and waste heat of the motor are inputs. The failure is part of the statement."
  },
  {
   "property": "C105",
   "status": "proved",
   "theorems": [
    "Gunns.Props.Gunns.Props.c105_table",
    "Gunns.Props.Gunns.Props.c105_cycle",
    "Gunns.Props.Gunns.Props.c105_double",
    "Gunns.Props.Gunns.Props.c105_int",
    "Gunns.Props.Gunns.Props.c105_int_to",
    "Gunns.Props.Gunns.Props.c105_int_missing",
    "Gunns.Props.Gunns.Props.c105_unique",
    "Gunns.Props.Gunns.Props.c105_unique_stuck"
   ],
   "note": "The table is transcribed in full. The failures are part of the statement."
  },
  {
   "property": "C106",
   "status": "proved",
   "theorems": [
    "Gunns.Props.Gunns.Props.c106_current",
    "Gunns.Props.Gunns.Props.c106_default",
    "Gunns.Props.Gunns.Props.c106_small",
    "Gunns.Props.Gunns.Props.c106_tangent_point",
    "Gunns.Props.Gunns.Props.c106_tangent_slope",
    "Gunns.Props.Gunns.Props.c106_tangent_backward",
    "Gunns.Props.Gunns.Props.c106_link"
   ],
   "note": "Over the real numbers with the power of real numbers for std::pow. The failures are part of the statement."
  },
  {
   "property": "C107",
   "status": "proved",
   "theorems": [
    "Gunns.Props.Gunns.Props.c107_draw",
    "Gunns.Props.Gunns.Props.c107_nominal",
    "Gunns.Props.Gunns.Props.c107_converges",
    "Gunns.Props.Gunns.Props.c107_stuck",
    "Gunns.Props.Gunns.Props.c107_unable"
   ],
   "note": "The source circuit is solved exactly. The failures are part of the statement."
  },
  {
   "property": "C108",
   "status": "proved",
   "theorems": [
    "Gunns.Props.Gunns.Props.c108_curve",
    "Gunns.Props.Gunns.Props.c108_passive",
    "Gunns.Props.Gunns.Props.c108_solution",
    "Gunns.Props.Gunns.Props.c108_accepts",
    "Gunns.Props.Gunns.Props.c108_settles",
    "Gunns.Props.Gunns.Props.c108_both"
   ],
   "note": "The source circuit is solved exactly; networks of several diodes are not covered. The failure is part of the statement."
  },
  {
   "property": "C109",
   "status": "proved",
   "theorems": [
    "Gunns.Props.Gunns.Props.c109_range",
    "Gunns.Props.Gunns.Props.c109_defined",
    "Gunns.Props.Gunns.Props.c109_poly",
    "Gunns.Props.Gunns.Props.c109_inverse",
    "Gunns.Props.Gunns.Props.c109_where",
    "Gunns.Props.Gunns.Props.c109_rational",
    "Gunns.Props.Gunns.Props.c109_quadLinInv",
    "Gunns.Props.Gunns.Props.c109_sutherland",
    "Gunns.Props.Gunns.Props.c109_root"
   ],
   "note": "Over the real numbers; overflow is not modelled. The failures are part of the statement."
  },
  {
   "property": "C110",
   "status": "proved",
   "theorems": [
    "Gunns.Props.Gunns.Props.c110_trim",
    "Gunns.Props.Gunns.Props.c110_trim_twice",
    "Gunns.Props.Gunns.Props.c110_split",
    "Gunns.Props.Gunns.Props.c110_split_total",
    "Gunns.Props.Gunns.Props.c110_line",
    "Gunns.Props.Gunns.Props.c110_stored",
    "Gunns.Props.Gunns.Props.c110_file",
    "Gunns.Props.Gunns.Props.c110_long",
    "Gunns.Props.Gunns.Props.c110_ends"
   ],
   "note": "Strings are lists over any alphabet; i/o errors, NUL characters and opening the file are outside the model."
  },
  {
   "property": "C111",
   "status": "proved",
   "theorems": [
    "Gunns.Props.Gunns.Props.c111_range",
    "Gunns.Props.Gunns.Props.c111_smoke",
    "Gunns.Props.Gunns.Props.c111_off",
    "Gunns.Props.Gunns.Props.c111_test",
    "Gunns.Props.Gunns.Props.c111_recovery",
    "Gunns.Props.Gunns.Props.c111_ends",
    "Gunns.Props.Gunns.Props.c111_again"
   ],
   "note": "The two analog sensors behind the percentages are outside this model. The failure of a second test is part of the statement."
  },
  {
   "property": "C112",
   "status": "proved",
   "theorems": [
    "Gunns.Props.Gunns.Props.c112_defined",
    "Gunns.Props.Gunns.Props.c112_rises",
    "Gunns.Props.Gunns.Props.c112_pressure",
    "Gunns.Props.Gunns.Props.c112_temperature",
    "Gunns.Props.Gunns.Props.c112_other",
    "Gunns.Props.Gunns.Props.c112_table",
    "Gunns.Props.Gunns.Props.c112_fluids"
   ],
   "note": "Over the real numbers; the table of fluids is transcribed in full. Pressure limits of zero or less are outside the model."
  },
  {
   "property": "C113",
   "status": "proved",
   "theorems": [
    "Gunns.Props.Gunns.Props.c113_present",
    "Gunns.Props.Gunns.Props.c113_dew",
    "Gunns.Props.Gunns.Props.c113_stale",
    "Gunns.Props.Gunns.Props.c113_row",
    "Gunns.Props.Gunns.Props.c113_accepts",
    "Gunns.Props.Gunns.Props.c113_liquid",
    "Gunns.Props.Gunns.Props.c113_cold"
   ],
   "note": "Over the real numbers; the fluid conductor behind the sensor is outside this model. The failure in the cold is part of the statement."
  },
  {
   "property": "C114",
   "status": "proved",
   "theorems": [
    "Gunns.Props.Gunns.Props.c114_sign",
    "Gunns.Props.Gunns.Props.c114_falls",
    "Gunns.Props.Gunns.Props.c114_fluids",
    "Gunns.Props.Gunns.Props.c114_constant",
    "Gunns.Props.Gunns.Props.c114_tetroxide"
   ],
   "note": "Over the real numbers; the tables of fluids are transcribed in full. The failure of three fluids is part of the statement."
  }
 ]
}