{"claims": [
{"property": "C01", "status": "proved", "theorems": ["Verif.PowersQueue.C01_queue_is_fifo", "Verif.PowersQueue.C01_outputs_are_the_inputs_in_order"], "note": ""},
{"property": "C02", "status": "partial", "theorems": ["Verif.PowersQueue.C02_get_empty", "Verif.PowersQueue.C02_put_unbuilt", "Verif.PowersQueue.C02_copy_same_values", "Verif.PowersQueue.C02_reachable_inv", "Verif.PowersQueue.C02_capacity_zero_violated"], "note": "violated for a queue built with capacity 0"},
{"property": "C03", "status": "proved", "theorems": ["Verif.DList.C03_lists_are_sequences", "Verif.DList.C03_self_merge_violated"], "note": "copies and merges between two different lists; merging a list into itself is excluded and shown to break it"},
{"property": "C04", "status": "proved", "theorems": ["Verif.Net.C04_words_read_back"], "note": ""},
{"property": "C05", "status": "partial", "theorems": ["Verif.Net.C05_extract_in_memory_partial", "Verif.Net.C05_extract_past_end_violated"], "note": "the code checks against allocated memory, so words past the end but inside the buffer are delivered"},
{"property": "C06", "status": "partial", "theorems": ["Verif.Net.C06_send", "Verif.Net.C06_receive", "Verif.Net.C06_end_to_end", "Verif.Net.C06_conversation", "Verif.Net.C06_truncated_fails", "Verif.Net.C06_huge_message_violated"], "note": "proved for messages below 2^30 words; violated above"},
{"property": "C07", "status": "proved", "theorems": ["Verif.Net.C07_bytes_round_trip", "Verif.Net.C07_insertions_succeed"], "note": ""},
{"property": "C36", "status": "proved", "theorems": ["Verif.Net.C36_client_decodes_server_reports", "Verif.Net.C36_over_the_socket"], "note": ""},
{"property": "C49", "status": "proved", "theorems": ["Verif.Net.C49_output_files_reply", "Verif.Net.C49_succeeds_up_to_1024"], "note": ""},
{"property": "C13", "status": "partial", "theorems": ["Verif.Dim.C13_columns_consecutive", "Verif.Dim.C13_rows_consecutive", "Verif.Dim.C13_point_in_one_cell", "Verif.Dim.C13_centers", "Verif.Dim.C13_lengths_add_up_4rm", "Verif.Dim.C13_lengths_add_up_partial", "Verif.Dim.C13_two_columns_center_violated", "Verif.Dim.C13_uncovered_chip_violated"], "note": "violated: chips that are not a whole number of cells are accepted; cell centre wrong when there are exactly two columns"},
{"property": "C14", "status": "proved", "theorems": ["Verif.Dim.C14_cells_bijection", "Verif.Dim.C14_spreader_follows"], "note": ""},
{"property": "C15", "status": "partial", "theorems": ["Verif.Dim.C15_inside_grid_partial", "Verif.Dim.C15_outside_grid_violated"], "note": "violated: only the flat index is checked"},
{"property": "C33", "status": "partial", "theorems": ["Verif.Dim.C33_probe_monitors_containing_cell", "Verif.Dim.C33_reported_location", "Verif.Dim.C33_last_wall_location_violated", "Verif.Dim.C33_uncovered_point_violated"], "note": "violated: reported location is 0 in a last wall longer than the others; points of the chip not covered by the grid"},
{"property": "C39", "status": "proved", "theorems": ["Verif.Dim.C39_accepted_iff_not_smaller", "Verif.Dim.C39_spreader_is_centred", "Verif.Dim.C39_spreader_maps_back"], "note": ""},
{"property": "C16", "status": "proved", "theorems": ["Verif.Stk.C16_layers_match_file", "Verif.Stk.C16_offsets_contiguous", "Verif.Stk.C16_every_layer_has_one_owner"], "note": ""},
{"property": "C17", "status": "proved", "theorems": ["Verif.Stk.C17_source_layer_is_the_die_source", "Verif.Stk.C17_floorplans_only_in_source_layers"], "note": ""},
{"property": "C18", "status": "proved", "theorems": ["Verif.Stk.C18_refused_iff", "Verif.Stk.C18_sinks_change_only_outermost_layers"], "note": ""},
{"property": "C38", "status": "partial", "theorems": ["Verif.Stk.C38_rejects_ill_formed_partial", "Verif.Stk.C38_consecutive_channels_violated"], "note": "violated for consecutive channels: the check looks at the first element of the list instead of the last one"},
{"property": "C19", "status": "proved", "theorems": ["Verif.SM.C19_valid_compressed_columns"], "note": ""},
{"property": "C20", "status": "partial", "theorems": ["Verif.SM.C20_allocation_suffices_partial", "Verif.SM.C20_count_differs_2rm_violated", "Verif.SM.C20_overflow_violated"], "note": "the count equals the coefficients for 4RM/no channel and suffices for the others; violated: it is too large by two per cell of a layer for 2RM and pin fins, and it wraps on 32 bits for very large grids"},
{"property": "C21", "status": "proved", "theorems": ["Verif.SM.C21_conduction_is_symmetric", "Verif.SM.C21_asymmetry_only_along_coolant", "Verif.SM.C21_coolant_part_is_antisymmetric"], "note": ""},
{"property": "C22", "status": "proved", "theorems": ["Verif.SM.C22_solid_step_dominant_unique", "Verif.SM.C22_coolant_step_unique"], "note": ""},
{"property": "C43", "status": "partial", "theorems": ["Verif.SM.C43_material_of_cell_partial", "Verif.SM.C43_two_columns_violated"], "note": "violated for grids with exactly two columns, where the cell centre is wrong (C13)"},
{"property": "C48", "status": "partial", "theorems": ["Verif.SM.C48_capacity", "Verif.SM.C48_lateral_series", "Verif.SM.C48_vertical_series_partial", "Verif.SM.C48_outermost_layer_violated", "Verif.SM.C48_sink_series", "Verif.SM.C48_spreader_series"], "note": "violated in outermost layers without a sink: the full height is used instead of half of it"},
{"property": "C26", "status": "partial", "theorems": ["Verif.Flp.C26_power_fully_distributed_partial", "Verif.Flp.C26_coefficients_add_up_to_one_partial", "Verif.Flp.C26_last_wall_violated"], "note": "proved when the grid covers the chip and walls are equal; violated when the last wall is longer than the others"},
{"property": "C27", "status": "partial", "theorems": ["Verif.Flp.C27_cells_are_those_overlapped_partial", "Verif.Flp.C27_last_wall_violated", "Verif.Flp.C27_uncovered_chip_violated"], "note": "proved when the grid covers the chip and walls are equal; violated otherwise"},
{"property": "C28", "status": "partial", "theorems": ["Verif.Flp.C28_names_and_overlaps_unchecked_violated", "Verif.Flp.C28_same_element_twice_violated", "Verif.Flp.C28_accepted_inside_chip_partial"], "note": "violated: the checks are commented out in the parser; only the location check remains"},
{"property": "C29", "status": "proved", "theorems": ["Verif.Flp.C29_symmetric", "Verif.Flp.C29_no_false_report", "Verif.Flp.C29_reports_overlaps_beyond_tolerance"], "note": ""},
{"property": "C51", "status": "proved", "theorems": ["Verif.Flp.C51_accepted_layouts_are_unambiguous"], "note": ""},
{"property": "C08", "status": "partial", "theorems": ["Verif.Emu.C08_time_counts_steps", "Verif.Emu.C08_slot_done_iff", "Verif.Emu.C08_wrap_violated"], "note": "proved for the 32-bit step counter; violated after 2^32 steps, when the counter wraps"},
{"property": "C09", "status": "proved", "theorems": ["Verif.Emu.C09_one_value_per_slot", "Verif.Emu.C09_ends_with_shortest_trace", "Verif.Emu.C42_sources_kept_inside_slot"], "note": ""},
{"property": "C10", "status": "partial", "theorems": ["Verif.Emu.C10_what_is_lost", "Verif.Emu.C10_equal_traces_partial", "Verif.Emu.C10_lost_value_violated"], "note": "violated for traces of different lengths: the call that reports the end consumes values"},
{"property": "C11", "status": "proved", "theorems": ["Verif.Emu.C11_wrong_config", "Verif.Emu.C11_slot_terminates"], "note": ""},
{"property": "C12", "status": "proved", "theorems": ["Verif.Emu.C12_slot_ends_at_boundary"], "note": ""},
{"property": "C35", "status": "proved", "theorems": ["Verif.Emu.C35_element_order", "Verif.Emu.C35_inserted_in_order"], "note": ""},
{"property": "C40", "status": "proved", "theorems": ["Verif.Emu.C40_units_round_trip", "Verif.Emu.C40_matrix_as_rebuilt", "Verif.Emu.C40_rest_untouched", "Verif.Emu.C40_sources_after_change", "Verif.Emu.C40_sources_as_rebuilt"], "note": "the coefficients of pin fin channels use the Darcy velocity, so their rebuilt matrix is the same one"},
{"property": "C41", "status": "proved", "theorems": ["Verif.Emu.C41_reset_only_temperatures", "Verif.Emu.C41_trajectory_after_reset", "Verif.Emu.C41_reset_as_fresh"], "note": ""},
{"property": "C42", "status": "proved", "theorems": ["Verif.Emu.C42_sources_of_the_slot", "Verif.Emu.C42_history_independent", "Verif.Emu.C42_sources_kept_inside_slot"], "note": "the closed formula is for elements inside a grid that covers the chip (see C26); history independence is for every grid"},
{"property": "C23", "status": "partial", "theorems": ["Verif.Emu.C23_equilibrium_preserved_partial", "Verif.Emu.C23_steady_partial", "Verif.Emu.C23_single_row_violated"], "note": "proved for stacks without coolant and for channels with more than one row of cells; violated for channels with a single row, where the matrix takes the outlet term only once"},
{"property": "C24", "status": "partial", "theorems": ["Verif.Emu.C24_energy_balance_partial", "Verif.Emu.C24_single_row_violated"], "note": "proved for stacks without coolant and for channels with more than one row of cells; violated for channels with a single row"},
{"property": "C25", "status": "proved", "theorems": ["Verif.Emu.C25_never_below_minimum", "Verif.Emu.C25_never_above_maximum", "Verif.Emu.C25_monotone", "Verif.Emu.C25_steady_never_below", "Verif.Emu.C25_steady_never_above", "Verif.Emu.C25_steady_monotone", "Verif.Emu.C25_coolant_violated"], "note": "transient steps and steady states of solid stacks; with flowing coolant neither holds: C25_coolant_violated exhibits a chip where any positive power cools the coolant at the inlet below every temperature present; stacks with a pluggable sink are excluded: their temperatures come from external code"},
{"property": "C46", "status": "proved", "theorems": ["Verif.Emu.C46_fixed_point", "Verif.Emu.C46_kept_during_slot", "Verif.Emu.C46_steady_result", "Verif.Emu.C46_steady_unique", "Verif.Emu.C46_sink_suffices", "Verif.Emu.C46_independent_of_history", "Verif.Emu.C46_transient_stops_at_steady_result"], "note": "stacks with a pluggable sink have no steady simulation (the code refuses it) and are excluded"},
{"property": "C30", "status": "partial", "theorems": ["Verif.Flp.C30_maximum", "Verif.Flp.C30_minimum", "Verif.Flp.C30_gradient", "Verif.Flp.C30_average_between", "Verif.Flp.C30_average_partial", "Verif.Flp.C30_average_same_size_partial", "Verif.Flp.C30_average_violated"], "note": "violated for the average of elements whose rectangles have different numbers of cells: it is the unweighted mean of the rectangle means"},
{"property": "C31", "status": "partial", "theorems": ["Verif.Outlet.C31_maximum_partial", "Verif.Outlet.C31_minimum_partial", "Verif.Outlet.C31_maximum_of_wall_violated", "Verif.Outlet.C31_minimum_of_wall_violated", "Verif.Outlet.C31_average_violated", "Verif.Outlet.C31_gradient_violated"], "note": "maximum and minimum proved for every model but 4RM, and for 4RM unless the first wall is hotter/colder than all the coolant; violated otherwise; the average is wrong for every 4RM grid and the gradient is the maximum"},
{"property": "C37", "status": "partial", "theorems": ["Verif.Solver.C37_slot_length_partial", "Verif.Solver.C37_never_zero", "Verif.Solver.C37_whole_numbers_partial", "Verif.Solver.C37_many_decimals_violated", "Verif.Solver.C37_rounding_violated"], "note": "proved in exact arithmetic when the scaled times fit 32 bits, and for whole numbers whatever the rounding; violated in binary64 (step 0.07, slot 0.35) and when the scaled slot exceeds 32 bits"},
{"property": "C32", "status": "partial", "theorems": ["Verif.Out.C32_what_is_written", "Verif.Out.C32_run_length", "Verif.Out.C32_records_of_a_point", "Verif.Out.C32_what_a_record_shows", "Verif.Out.C32_maps_carry_no_time_violated", "Verif.Out.C32_simulation_ends", "Verif.Out.C32_steady", "Verif.Out.C32_unopenable_violated"], "note": "proved for every point and run; violated for the time of thermal and power maps, whose records carry none, and for files that cannot be opened during the run (later points of the same instant lose their records too); one trace must be shorter than 2^32 steps; the printed digits are not modelled"},
{"property": "C50", "status": "partial", "theorems": ["Verif.Out.C50_after_the_end", "Verif.Out.C50_steady_partial", "Verif.Out.C50_last_slot_violated"], "note": "violated in transient runs: the call that finds the end of the traces clears the source vector first; proved for steady runs; what the transient map shows instead is characterised"},
{"property": "C34", "status": "partial", "theorems": ["Verif.Srv.C34_answers_in_order_partial", "Verif.Srv.C34_never_stuck", "Verif.Srv.C34_output_word_zero_violated", "Verif.Srv.C34_insert_failure_violated", "Verif.Srv.C34_truncated_request_executed_violated"], "note": "Every session of the server (uniform grids): the replies are the specified ones, in request order, for every request list and every way the bytes are delivered; the server ends at an exit request, the end of the simulation, an error or a disconnection, and never gets stuck. Three deviations from include/types.h are proved: word 0 of an output reply is the time and not the number of points, a failing power insertion gets no reply, and a request truncated by a dying client is executed. Missing: non-uniform grids."},
{"property": "C47", "status": "proved", "theorems": ["Verif.Cli.C47_stops_at_termination_slot", "Verif.Cli.C47_simulates_until_termination", "Verif.Cli.C47_terminates", "Verif.Cli.C47_client_and_server", "Verif.Cli.C47_arguments", "Verif.Cli.C47_large_number_violated"], "note": "The client model (arguments, trace reader, main loop) against an arbitrary server, against any cooperating server, and composed with the server model of C34; a number of slots of 2^32 or more is truncated (finding)."},
{"property": "C44", "status": "partial", "theorems": ["Verif.NU.C44_schedule_independent", "Verif.NU.C44_any_sort", "Verif.NU.C44_offdiagonal_any_rounding", "Verif.NU.C44_structure", "Verif.NU.C44_symmetric", "Verif.NU.C44_row_sums", "Verif.NU.C44_dominant_unique", "Verif.NU.C44_rounding_violated"], "note": "Non-uniform stacks of dies and layers, with a conventional top sink or a spreader, any schedule of the parallel loops. Exact arithmetic: the matrix does not depend on the schedule nor on the sorting algorithm, is symmetric, has the announced size and the stated row sums, and the step has one solution. With rounded additions the diagonal does depend on the schedule (C44_rounding_violated). Missing: stacks with channels; the term of a bottom sink (C45)."},
{"property": "C45", "status": "partial", "theorems": ["Verif.NU.C45_violated", "Verif.NU.C45_without_bottom_partial", "Verif.NU.C45_bottom_only_violated"], "note": "Refuted: on a non-uniform grid the source vector contains the bottom sink (without its heat transfer coefficient) and the matrix does not, so for every stack with a bottom sink the ambient temperature is no equilibrium; with only a bottom sink the program reads a null pointer. Without a bottom sink the ambient temperature is an equilibrium."},
{"property": "C53", "status": "proved", "theorems": ["Verif.NU.C53_power_of_each_cell", "Verif.NU.C53_one_value_each", "Verif.NU.C53_total_power"], "note": "Exact arithmetic, integer discretizations, stacks without channels whose layers all have cells."},
{"property": "C54", "status": "partial", "theorems": ["Verif.NU.C54_cells_fit_arrays", "Verif.NU.C54_rectangles_divided", "Verif.NU.C54_one_cell_per_point_partial", "Verif.NU.C54_second_rectangle_violated"], "note": "Any stack of dies and layers: the cells fit the arrays, and a point lies in as many cells of a layer as there are rectangles that contain it, hence in exactly one when the first rectangles of the floorplan elements tile the chip. Refuted for elements with several rectangles: only the first one has cells, although the floorplan file is accepted."},
{"property": "C52", "status": "partial", "theorems": ["Verif.NU.C52_conductances_partial", "Verif.NU.C52_nested_violated", "Verif.NU.C52_double_conductance_violated"], "note": "Every pair of cells of every non-uniform stack of dies and layers (borders equal or more than 0.001 apart): the coefficient is minus the conductance given by the geometry, and zero without contact. Refuted for neighbours of which one ends strictly inside the border of the other on both sides: the program takes too long a contact (twice the conductance in the example). Missing: pairs of spreader cells, channels (see C58), borders closer than the tolerance."},
{"property": "C55", "status": "partial", "theorems": ["Verif.NU.C55_element_written", "Verif.NU.C55_floorplan_written", "Verif.NU.C55_element_statistics_partial", "Verif.NU.C55_floorplan_statistics_partial", "Verif.NU.C55_probe_partial", "Verif.NU.C55_probe_in_stack_partial", "Verif.NU.C55_probe_in_stack", "Verif.NU.C55_maps", "Verif.NU.C55_several_rectangles_violated", "Verif.NU.C55_probe_without_cell_violated"], "note": "Stacks of dies and layers, elements with one rectangle, floorplans without overlaps; maps for every layer. Refuted for elements with several rectangles (cell 0 of the stack enters the statistics in place of the other rectangles; what is written instead is stated exactly, for any number of rectangles, by C55_element_written and C55_floorplan_written) and for probes outside every cell (cell 0 is reported). Probes also in stacks with channels (C55_probe_in_stack). Missing: coolant and 3D points, channels for the statistics."},
{"property": "C56", "status": "partial", "theorems": ["Verif.NU.C56_matrices", "Verif.NU.C56_sources", "Verif.NU.C56_same_matrix_partial", "Verif.NU.C56_same_sources_partial", "Verif.NU.C56_same_solutions_partial", "Verif.NU.C56_regular_subdivision", "Verif.NU.C56_bottom_sink_violated", "Verif.NU.C56_bottom_sources_violated", "Verif.NU.C56_bottom_warmer"], "note": "Stacks of dies and layers with a conventional top sink: C56_matrices and C56_sources give the exact difference of the two modes, with or without a bottom sink. Without one: matrix, heat capacities, solutions and sources are equal up to the numbering of the cells, and a regular subdivision of a grid with equal cells yields the cells of the uniform grid. Refuted for every stack with a bottom sink: each diagonal of the lowest layer lacks the conductance to the ambient (C56_bottom_sink_violated), each of its cells gets too much heat from the ambient (C56_bottom_sources_violated), and both errors make the stack warmer than in uniform mode (C56_bottom_warmer). Missing: channels, the heat spreader, layouts with several materials."},
{"property": "C57", "status": "proved", "theorems": ["Verif.SM.C57_stream", "Verif.SM.C57_film_4rm", "Verif.SM.C57_wall_4rm", "Verif.SM.C57_film_2rm", "Verif.SM.C57_walls_2rm", "Verif.SM.C57_stored_in_walls"], "note": "Over an arbitrary ordered field, for every stack file accepted by the parser. The pin-fin correlations (C function pow) are parameters. The couplings with the layers below and above are stated for solid layers; consecutive channels (accepted by mistake, C38) are not covered by that part. Single-row channels are excluded from the row and column sums (see C23)."},
{"property": "C58", "status": "partial", "theorems": ["Verif.NU.C58_cells", "Verif.NU.C58_one_cell_per_point", "Verif.NU.C58_stream", "Verif.NU.C58_solid", "Verif.NU.C58_walls", "Verif.NU.C58_solid_pairs_partial", "Verif.NU.C58_below", "Verif.NU.C58_above", "Verif.NU.C58_inside_4rm", "Verif.NU.C58_inside_2rm", "Verif.NU.C58_inside_layer_2rm", "Verif.NU.C58_virtual_wall_violated", "Verif.NU.C58_zero_film_violated", "Verif.NU.C58_gap_violated", "Verif.NU.C58_outlet_rounding_violated"], "note": "Every accepted stack with channels, over an arbitrary ordered field (borders of cells equal or more than 0.001 apart; columns that fill the chip where points and lateral contacts are concerned). Refuted: (1) the solid fraction of 2RM conducts along the channel with the length of the cell in place of its width; (2) a film coefficient of zero couples the wall under a 4RM channel directly to the coolant instead of insulating it; (3) if the columns do not fill the chip, points before the last column lie in no cell of the channel; (4) the outlet is found by an equality of rounded numbers, which fails in binary64 for 15 rows on a width of 1000: the outlet term is dropped. Missing: the exceptions of C52 for pairs of solid cells; channels directly over channels (accepted by mistake, C38)."},
{"property": "C59", "status": "partial", "theorems": ["Verif.NU.C59_sources", "Verif.NU.C59_total_sources", "Verif.NU.C59_capacities", "Verif.NU.C59_heat_balance", "Verif.NU.C59_equilibrium_partial"], "note": "Every accepted stack, with or without channels, over an arbitrary ordered field; the powers, the sinks and the coolant for transient and steady systems. The odd number of columns of 4RM channels, checked by the parser, is a hypothesis. The balance states the term of the bottom sink as the program computes it (in the sources only, see C45); equilibrium is therefore proved for stacks without a bottom sink. Missing: rounding."},
{"property": "C60", "status": "partial", "theorems": ["Verif.NU.C60_wrong_config", "Verif.NU.C60_slot_terminates", "Verif.NU.C60_slot_ends_at_boundary", "Verif.NU.C60_one_value_per_slot", "Verif.NU.C60_ends_with_shortest_trace", "Verif.NU.C60_what_is_lost", "Verif.NU.C60_equal_traces_partial", "Verif.NU.C60_inserted_in_order", "Verif.NU.C60_element_order", "Verif.NU.C60_schedule_independent", "Verif.NU.C60_schedule_builds", "Verif.NU.C60_heat_balance", "Verif.NU.C60_equilibrium_partial", "Verif.NU.C60_steady"], "note": "Every accepted stack on a non-uniform grid and every history of steps, insertions and resets; solver and callback arbitrary for the first eleven theorems, a correct solver and an ambient (or no pluggable) top sink for the balance. As on uniform grids (C08) a slot that cannot start may take values from some elements: the theorem says which. Equilibrium is proved without a bottom sink, whose term the program omits (C45). Changes of the coolant flow between slots are included (the stack is then the one with the current rate; inside a slot see C61). Missing: the balance with a pluggable sink, rounding."},
{"property": "C62", "status": "proved", "theorems": ["Verif.NU.C62_step_unique", "Verif.NU.C62_steps_succeed"], "note": "Every accepted stack with or without channels, over an arbitrary ordered field; borders of cells equal or more than 0.001 apart. Second theorem: ambient top sink."},
{"property": "C61", "status": "partial", "theorems": ["Verif.NU.C61_matrix_as_rebuilt", "Verif.NU.C61_rest_untouched", "Verif.NU.C61_written", "Verif.NU.C61_inlets_right_partial", "Verif.NU.C61_next_slot", "Verif.NU.C61_inlet_stale_violated", "Verif.NU.C61_wrong_cells_violated"], "note": "Matrix, capacities, state: proved for every history. The inlet terms are right only if the inlets are where a uniform grid has them (C61_inlets_right_partial); for other grids the code is wrong: stale inlets (C61_inlet_stale_violated), lost power and a write behind the end of the vector (C61_wrong_cells_violated), because update_channel_sources advances by rows*columns per layer."},
{"property": "C63", "status": "partial", "theorems": ["Verif.NU.C63_spreader_cells", "Verif.NU.C63_exchange", "Verif.NU.C63_heat_balance", "Verif.NU.C63_steps_succeed", "Verif.NU.C63_equilibrium_partial", "Verif.NU.C63_capacity_overflow_violated", "Verif.NU.C63_border_violated", "Verif.NU.C63_lost_power_violated"], "note": "Spreaders without borders: proved for every accepted stack, every callback and every history, for grids of less than 2^32 cells, a correct solver. Spreaders with borders are accepted by the program, and for them the property is false: C63_capacity_overflow_violated and C63_border_violated for every such stack, C63_lost_power_violated on a concrete one. Equilibrium without a bottom sink (see C45)."},
{"property": "C64", "status": "partial", "theorems": ["Verif.NU.C64_same_runs_partial", "Verif.NU.C64_same_slots_partial", "Verif.NU.C64_same_steady_partial"], "note": "Every history, slot and steady state; stacks of dies and layers with a conventional top sink. Missing: channels, bottom sinks and pluggable sinks. The solvers are correct and solve every system with one solution."},
{"property": "C65", "status": "partial", "theorems": ["Verif.Scan.C65_free_format_partial", "Verif.Scan.C65_unambiguous", "Verif.Scan.C65_comment_violated", "Verif.Scan.C65_hidden_violated", "Verif.Scan.C65_stray_violated", "Verif.Scan.C65_point_violated"], "note": "All token sequences and layouts, with the exception of block comments that contain two adjacent stars; for these the theorems say what is read instead (the rest of the file may vanish). Stray characters are skipped silently. Numbers are rationals: rounding of atof is not modelled."},
{"property": "C66", "status": "proved", "theorems": ["Verif.Gram.C66_stack", "Verif.Gram.C66_floorplan", "Verif.Gram.C66_layout", "Verif.Gram.C66_unambiguous", "Verif.Gram.C66_text_partial", "Verif.Gram.C66_flp_text_partial", "Verif.Gram.C66_layout_text_partial", "Verif.Gram.C66_every_document", "Verif.Gram.C66_every_floorplan", "Verif.Gram.C66_every_layout"], "note": "Token level: equivalences, all three files. The text theorems compose with C65 and inherit its exception (block comments that contain adjacent stars). The parser modelled is recursive descent; that the LALR(1) tables bison generates decode the grammar is trusted."},
{"property": "C67", "status": "proved", "theorems": ["Verif.FE.C67_meaning", "Verif.FE.C67_declarations", "Verif.FE.C67_order", "Verif.FE.C67_shorthand", "Verif.FE.C67_names", "Verif.FE.C67_text"], "note": "Equivalence for every document and every set of files; texts as in C65 (no adjacent stars in block comments). The plug-in of a pluggable sink is not loaded in the model, undefined conversions in the dimensions section count as refusals. The list of all declared materials, which nothing reads after parsing, keeps the order of the file."},
{"property": "C68", "status": "proved", "theorems": ["Verif.Prog.C68_session", "Verif.Prog.C68_failure", "Verif.Prog.C68_one_outcome", "Verif.Prog.C68_text", "Verif.Prog.C68_accepted", "Verif.Prog.C68_runs", "Verif.Prog.C68_points", "Verif.Prog.C68_always_ends", "Verif.Prog.C68_transient_outputs", "Verif.Prog.C68_run_length", "Verif.Prog.C68_whole_run", "Verif.Prog.C68_initial", "Verif.Prog.C68_heat_equation", "Verif.Prog.C68_only_solution", "Verif.Prog.C68_history", "Verif.Prog.C68_energy_balance", "Verif.Prog.C68_never_below", "Verif.Prog.C68_never_above", "Verif.Prog.C68_equilibrium", "Verif.Prog.C68_steady_outputs", "Verif.Prog.C68_steady_state", "Verif.Prog.C68_steady_only", "Verif.Prog.C68_steady_succeeds", "Verif.Prog.C68_solver_error_unreported_violated"], "note": "Uniform grids, real arithmetic, 32-bit step counter not exceeded where stated. Uniqueness (C68_only_solution, C68_history, C68_steady_only) without a pluggable sink; with one, C68_heat_equation includes the flows of the plug-in. Headers and terminal output are not modelled; times are as in C37."},
{"property": "C69", "status": "proved", "theorems": ["Verif.Prog.C69_session", "Verif.Prog.C69_failure", "Verif.Prog.C69_one_outcome", "Verif.Prog.C69_text", "Verif.Prog.C69_same_input", "Verif.Prog.C69_one_mode", "Verif.Prog.C69_runs", "Verif.Prog.C69_transient_outputs", "Verif.Prog.C69_run_length", "Verif.Prog.C69_steady_outputs"], "note": "Real arithmetic; names of elements with maps shorter than 39 characters and of 3D files shorter than 37 (longer ones overflow the buffers of the program), fewer than 10^9 steps for C69_runs, 32-bit step counter not exceeded elsewhere. Bodies of the headers are abstracted. Values of the records and of conductance_layer.txt: see C71; temperatures: see C70."},
{"property": "C70", "status": "proved", "theorems": ["Verif.Prog.C70_steps_succeed", "Verif.Prog.C70_whole_run", "Verif.Prog.C70_heat_balance", "Verif.Prog.C70_heat_balance_plug", "Verif.Prog.C70_steady", "Verif.Prog.C70_equilibrium", "Verif.Prog.C70_capacities", "Verif.Prog.C70_raster"], "note": "The whole program on a non-uniform grid, from the documents. The balance with a plug-in needs a spreader as large as the chip (false otherwise: C63), the equilibrium no bottom sink (whose term the program omits from the matrix: C45). The steady state assumes that the solver found a solution. Solver exact, arithmetic without rounding."},
{"property": "C71", "status": "proved", "theorems": ["Verif.Prog.C71_transient", "Verif.Prog.C71_steady", "Verif.Prog.C71_report", "Verif.Prog.C71_appended", "Verif.Prog.C71_replaced", "Verif.Prog.C71_openable"], "note": "Every value in every file, in terms of the documents, for the points of a non-uniform grid: Tcell where exactly one floorplan element has the point, Tflp and Tflpel where the elements do not overlap (otherwise C28), each further rectangle of an element counting cell 0 of the stack once more (C55), the maximum and the minimum of the coolant (the average and the gradient are wrong: C31). Divisions of at least one column and one row; real arithmetic."},
{"property": "C72", "status": "proved", "theorems": ["Verif.NU.C72_steady_unique", "Verif.NU.C72_steady_succeeds", "Verif.NU.C72_steady_deterministic", "Verif.NU.C72_gaps_violated", "Verif.Prog.C72_program_steady", "Verif.Prog.C72_program_unique"], "note": "Exact arithmetic; conventional heat sink on top, floorplans whose first rectangles leave no gaps, no channel directly on another, borders of cells equal or more than 0.001 apart, columns of the channels that fill the chip, positive exchange coefficients of the coolant, at least one power value per element. The solver is any function that returns only solutions and finds those that are unique. Refuted without the condition on gaps: a floorplan element under a gap of the next die that touches no other cell makes the steady state undetermined, and the stack is accepted (C72_gaps_violated)."},
{"property": "C73", "status": "partial", "theorems": ["Verif.Print.C73_floorplan", "Verif.Print.C73_round_trip", "Verif.Print.C73_no_values_violated", "Verif.Print.C73_division_lost_violated", "Verif.Print.C73_stack_violated"], "note": "Floorplan files: proved if every element has values left; refuted otherwise, for materials and discretizations, and for stack files as a whole (what follows the materials in a stack file is arbitrary in the theorem). Numbers are rationals, printf rounds them exactly; files that read as documents of the free format of C65."},
{"property": "C74", "status": "proved", "theorems": ["Verif.NU.C74_never_below", "Verif.NU.C74_never_above", "Verif.NU.C74_monotone", "Verif.NU.C74_steady_never_below", "Verif.NU.C74_steady_monotone", "Verif.Prog.C74_program_never_below", "Verif.Prog.C74_program_never_above", "Verif.Prog.C74_program_steady_never_below", "Verif.Prog.C74_program_monotone", "Verif.Prog.C74_program_steady_monotone"], "note": "Exact arithmetic; no coolant; a conventional heat sink on top; for every order in which threads deliver the connections of the cells. The solver is any function that returns only solutions. The upper bound excludes a bottom sink: its heat is added but never removed (C45). The steady statements need floorplans without gaps (C72) and borders of cells equal or more than 0.001 apart. The two runs that are compared share the geometry, the materials and the coefficients of the sinks; powers, ambient temperatures and the initial temperature of the second are not lower."},
{"property": "C75", "status": "proved", "theorems": ["Verif.Prog.C75_monotone", "Verif.Prog.C75_steady_never_below", "Verif.Prog.C75_steady_never_above", "Verif.Prog.C75_steady_monotone"], "note": "two runs of the program on uniform grids without coolant, from the text of their files; the transient bounds of one run are C68_never_below and C68_never_above, non-uniform grids are C74; exact arithmetic, any correct solver"},
{"property": "C76", "status": "proved", "theorems": ["Verif.Prog.C76_names", "Verif.Prog.C76_step", "Verif.Prog.C76_slot", "Verif.Prog.C76_end", "Verif.Prog.C76_same_name_violated", "Verif.Prog.C76_relative_violated", "Verif.Prog.C76_relative_lost_violated", "Verif.Prog.C76_uniform_violated"], "note": "Under the conditions of the statement on the names (KeepsOff, NoDigit); the three refuted parts are the _violated theorems."},
{"property": "C77", "status": "proved", "theorems": ["Verif.Own.C77_histories", "Verif.Own.C77_lists", "Verif.Own.C77_independent", "Verif.Own.C77_nothing_left", "Verif.Own.C77_clones", "Verif.Own.C77_stack_destroyed", "Verif.Own.C77_dimensions_violated", "Verif.Own.C77_heat_sink_violated"], "note": "All types and all histories. A copy of an object to itself is excluded (the model passes objects by value). Queues of powers: clones and destruction (copying into a built queue is C02). The functions of queues and matrices are modelled when the arrays are there as their constructors leave them. Two counterexamples in the code: dimensions with Cell_pointer set, PluggableHeatsinkInit of heat sinks."},
{"property": "C78", "status": "proved", "theorems": ["Verif.Own.C78_build_and_destroy", "Verif.Own.C78_no_memory", "Verif.Own.C78_refused_violated", "Verif.Own.C78_singular_violated", "Verif.Own.C78_after_failure_violated", "Verif.Own.C78_destroy_twice_violated", "Verif.Own.C78_unbuilt_violated"], "note": "The guarantees for success and for failing allocations are proved; the _violated theorems prove, for all stacks, that refused stacks and singular matrices lose memory and that thermal data cannot be destroyed after a failed construction, twice, or unbuilt. Allocation within layer_copy does not fail; SuperLU ends the program when it has no memory."},
{"property": "C79", "status": "proved", "theorems": ["Verif.Wrap.C79_delivered", "Verif.Wrap.C79_count", "Verif.Wrap.C79_powers", "Verif.Wrap.C79_wrong_number", "Verif.Wrap.C79_simulate", "Verif.Wrap.C79_temperatures", "Verif.Wrap.C79_map_violated", "Verif.Wrap.C79_floorplan_violated", "Verif.Wrap.C79_time_violated", "Verif.Wrap.C79_lost_connection_violated"], "note": "The positive parts for every state a server reaches (Serving); the reply arrives whole (C79_delivered). The _violated theorems prove the refuted parts. Opening and closing the connection are not modelled; SystemC times are exact."}
]}
