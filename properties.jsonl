{"id": "C01", "title": "Power trace queue is FIFO", "statement": "Power values handed to a power queue come back one per get, in the order they were put, none lost, duplicated, reordered or altered, whatever interleaving of puts and gets is used and however often the internal ring wraps around or grows.", "quantifier": "every initial capacity >= 1, every finite sequence of put/get operations, every value", "why_tests_cant": "wrap-around combined with growth depends on the relative position of start/end at the moment the queue fills; the set of interleavings is infinite", "anchors": ["sources/powers_queue.c: powers_queue_build, put_into_powers_queue, get_from_powers_queue, powers_queue_copy"]}
{"id": "C02", "title": "Power queue corner cases are harmless", "statement": "Getting from an empty or never-built queue returns 0.0 and changes nothing; putting into a never-built queue changes nothing; a queue never touches memory outside its buffer; copying a queue yields the same remaining values and leaves the source untouched.", "quantifier": "every queue state reachable through the API, including a queue built with capacity 0", "why_tests_cant": "memory safety has to hold in every reachable state; a test of a few traces does not exercise capacity 0 or every start/end position", "anchors": ["sources/powers_queue.c: put_into_powers_queue, get_from_powers_queue, powers_queue_copy, powers_queue_build", "bin/3D-ICE-Server.c: case TDICE_INSERT_POWERS"]}
{"id": "C03", "title": "Typed lists keep insertion order and stay linked", "statement": "After any sequence of insert-at-begin, insert-at-end, copy and merge, walking a list forward gives exactly the inserted values in order, walking it backward gives the reverse, its size is the number of values, merging appends the second list and leaves it empty, and find returns the first value that matches.", "quantifier": "every sequence of list operations on any number of lists, every element type", "why_tests_cant": "pointer structure invariants must hold for all histories; a wrong Prev link only shows when the list is walked backward after a particular history", "anchors": ["sources/list_template.c", "sources/stack_element_list.c", "sources/connection_list.c"]}
{"id": "C04", "title": "Network message words read back as inserted", "statement": "After starting a message and inserting n words, its length word is n+2, its type word is the type given, and extracting index i < n returns the i-th inserted word, for any n, across every internal memory growth.", "quantifier": "every message type, every finite list of 32-bit words whose length stays below the 32-bit limit", "why_tests_cant": "growth happens at powers of two times 256; only finitely many sizes can be tried", "anchors": ["sources/network_message.c: build_message_head, insert_message_word, increase_message_memory, extract_message_word"]}
{"id": "C05", "title": "Extracting past the end of a message fails", "statement": "Asking a message for a content word that was never inserted or received reports failure and does not deliver a value.", "quantifier": "every message and every index at or beyond the number of content words", "why_tests_cant": "needs every length/capacity combination; a test with an index far out of range passes while one just past the end does not", "anchors": ["sources/network_message.c: extract_message_word", "bin/3D-ICE-Server.c: case TDICE_INSERT_POWERS"]}
{"id": "C06", "title": "A message survives any fragmentation of the byte stream", "statement": "A message sent with the socket layer is received identical (length, type, all words) by the peer however the transport splits the bytes over reads and writes and however often calls are interrupted; a stream that ends early is reported as failure.", "quantifier": "every message, every partition of the byte stream into non-empty chunks, any number of interrupted calls, every truncation point", "why_tests_cant": "fragmentation is chosen by the kernel and network; the number of partitions is exponential in the message size", "anchors": ["sources/network_socket.c: send_message_to_socket, receive_message_from_socket"]}
{"id": "C07", "title": "Byte strings packed in messages round-trip", "statement": "A file name, header or file content packed into a message by the server is recovered byte for byte by the client from the word index it was put at, and the reader ends exactly at the next field.", "quantifier": "every byte string of every length, at every position in a message", "why_tests_cant": "the padding of the last word depends on the length modulo 4; all strings cannot be enumerated", "anchors": ["sources/inspection_point.c: insert_message_bytes", "bin/3D-ICE-Server.c: insert_message_bytes", "bin/3D-ICE-Client.c: extract_message_bytes"]}
{"id": "C08", "title": "Steps, slots and simulated time agree", "statement": "After n successful transient steps the simulated time is n times the step time, and the n-th step reports SLOT_DONE exactly when n is a multiple of the slot length, STEP_DONE otherwise.", "quantifier": "every slot length >= 1, every number of steps, every power trace long enough", "why_tests_cant": "a counter property over unbounded histories", "anchors": ["sources/thermal_data.c: emulate_step", "sources/analysis.c: slot_completed, increase_by_step_time, get_simulated_time"]}
{"id": "C09", "title": "A transient run lasts exactly as long as the shortest power trace", "statement": "Starting at a slot boundary, the simulation consumes exactly one power value per floorplan element per slot, holds it for the whole slot, and stops with END_OF_SIMULATION after exactly min over elements of the number of available values slots; the step that reports the end does not advance time or change temperatures.", "quantifier": "every set of floorplan element traces of any lengths, every slot length", "why_tests_cant": "traces and lengths are unbounded; off-by-one consumption shows only at the end of a trace or at particular slot lengths", "anchors": ["sources/thermal_data.c: emulate_step, emulate_slot", "sources/power_grid.c: update_source_vector", "sources/floorplan.c: fill_sources_floorplan", "bin/3D-ICE-Emulator.c: main"]}
{"id": "C10", "title": "Running out of power values consumes nothing", "statement": "When a slot cannot start because some floorplan element has no power value left, no element loses a value: after more values are inserted the traces are still aligned in time.", "quantifier": "every set of queues in which at least one is empty at a slot start", "why_tests_cant": "depends on which element runs out and on its position among the others", "anchors": ["sources/floorplan.c: fill_sources_floorplan", "sources/power_grid.c: update_source_vector"]}
{"id": "C11", "title": "Simulation functions refuse the wrong analysis type", "statement": "emulate_step/emulate_slot on a non-transient setup and emulate_steady on a non-steady setup return WRONG_CONFIG and change nothing; emulate_slot on a transient setup always terminates.", "quantifier": "every state of the simulator, every analysis type", "why_tests_cant": "claims about every state, and termination", "anchors": ["sources/thermal_data.c: emulate_step, emulate_slot, emulate_steady"]}
{"id": "C12", "title": "emulate_slot ends exactly at the slot boundary", "statement": "A successful emulate_slot returns SLOT_DONE with time advanced to the next multiple of the slot length and power traces advanced by exactly one value if it began at a boundary (none if it was called mid-slot).", "quantifier": "every slot length, every starting time including mid-slot, every solver behaviour that succeeds", "why_tests_cant": "all starting phases within a slot and all slot lengths", "anchors": ["sources/thermal_data.c: emulate_slot, emulate_step"]}
{"id": "C13", "title": "Cells tile the chip", "statement": "Along each axis the cells are consecutive and non-overlapping: each cell starts where the previous one ends, the first starts at 0, the cell centre is the middle of the cell, and the lengths of all cells add up to the chip length; hence each point of the chip lies in exactly one cell.", "quantifier": "every grid the dimensions section accepts, with and without 4RM channel/wall lengths (including different first and last walls)", "why_tests_cant": "holds for all numbers of columns and all lengths; special first/last wall lengths are easy to miss in tests", "anchors": ["sources/dimensions.c: get_cell_length, get_cell_location_x, get_cell_center_x, get_cell_location_y, get_cell_center_y", "bison/stack_description_parser.y: dimensions"]}
{"id": "C14", "title": "Cell indices are a bijection", "statement": "Distinct (layer,row,column) triples inside the grid have distinct positions in the temperature/source vectors, the positions fill 0..cells-1 without gaps, heat-spreader cells follow right after, and lower layers come first.", "quantifier": "every grid size and spreader size", "why_tests_cant": "for all sizes; aliasing of two cells is invisible on symmetric inputs", "anchors": ["sources/dimensions.c: get_cell_offset_in_layer, get_cell_offset_in_stack, get_spreader_cell_offset"]}
{"id": "C15", "title": "Reading the temperature of a cell outside the grid is refused", "statement": "Asking for the temperature at a layer, row or column outside the grid returns the documented 0.0 value instead of another cell's temperature.", "quantifier": "every triple of indices", "why_tests_cant": "only some out-of-range triples alias", "anchors": ["sources/thermal_data.c: get_cell_temperature"]}
{"id": "C16", "title": "Stack elements own disjoint, contiguous layers bottom-up", "statement": "For every accepted stack, the stack elements listed from the bottom occupy consecutive layer ranges starting at layer 0 and ending at the number of layers, heights and layer types are recorded for each layer of the element it belongs to, and every layer of the grid gets exactly one type.", "quantifier": "every list of stack elements (layers, dies with any number of layers, channels of all models)", "why_tests_cant": "unbounded stacks; the parser sees elements top-down and numbers them bottom-up", "anchors": ["bison/stack_description_parser.y: stack", "sources/thermal_grid.c: thermal_grid_fill"]}
{"id": "C17", "title": "Power of a die is injected into its source layer only", "statement": "The layer into which a die's floorplan powers are injected, the layer marked as source, and the layer read by Tflp/Tflpel/Pmap inspection points are the same single layer, namely the die's source layer as written in the stack file (counted from the die's bottom).", "quantifier": "every die with any number of layers above and below the source, at any stack position", "why_tests_cant": "depends on position and number of layers; an off-by-one is invisible when the source is the only layer", "anchors": ["bison/stack_description_parser.y: die, die_bottom_layers_list", "sources/thermal_grid.c: thermal_grid_fill", "sources/stack_element.c: get_source_layer_offset", "sources/power_grid.c: power_grid_fill, update_source_vector"]}
{"id": "C18", "title": "Heat sinks attach to the outermost layers and never share a layer", "statement": "A top sink changes only the type of the topmost layer, a bottom sink only the type of the bottommost layer; when both would fall on the same layer the thermal grid is refused.", "quantifier": "every accepted stack and every combination of sinks", "why_tests_cant": "single-layer and mixed stacks, all combinations", "anchors": ["sources/thermal_grid.c: thermal_grid_fill"]}
{"id": "C19", "title": "System matrix is a valid compressed-column matrix", "statement": "For every accepted uniform stack, each column's row indices are strictly increasing and inside the matrix, each column contains its diagonal, and column pointers are monotone and start at 0.", "quantifier": "every grid size and every layer composition (solid, 4RM, 2RM, pin fins, spreader)", "why_tests_cant": "boundary cells, single row/column/layer grids and mixed stacks all take different branches", "anchors": ["sources/system_matrix.c: fill_system_matrix, add_solid_column, add_liquid_column_4rm, add_liquid_column_2rm, add_bottom_wall_column_2rm, add_top_wall_column_2rm, add_virtual_wall_column_2rm, add_spreader_column"]}
{"id": "C20", "title": "The matrix never overruns its allocation", "statement": "The number of coefficients written while filling the matrix equals the number of connections computed by the parser, which is what was allocated and told to the solver.", "quantifier": "every accepted uniform stack: any number of rows, columns, layers, channels, any channel model, with or without spreader", "why_tests_cant": "the closed formula and the column loops are independent pieces of code that must agree for all sizes", "anchors": ["sources/dimensions.c: compute_number_of_connections", "sources/system_matrix.c: fill_system_matrix, system_matrix_build"]}
{"id": "C21", "title": "Conduction is symmetric", "statement": "In a stack without coolant the coefficient between two cells is the same in both directions, for any mix of materials, layer heights, cell sizes and layouts.", "quantifier": "every solid stack, every pair of cells", "why_tests_cant": "all pairs of neighbouring cell kinds and all material values", "anchors": ["sources/system_matrix.c: add_solid_column, add_spreader_column", "sources/thermal_grid.c: get_conductance_*"]}
{"id": "C22", "title": "Each transient solid step has exactly one solution", "statement": "For a solid stack with positive material properties and positive step time the linear system solved at each step is strictly diagonally dominant with non-positive off-diagonal coefficients and therefore has exactly one solution.", "quantifier": "every solid stack, every material and geometry with positive values", "why_tests_cant": "an infinite family of matrices", "anchors": ["sources/system_matrix.c: add_solid_column, fill_system_matrix", "sources/thermal_data.c: emulate_step"]}
{"id": "C23", "title": "Thermal equilibrium is preserved", "statement": "If all cells, the ambient and the coolant inlet are at the same temperature and no power is dissipated, the system is in balance: that uniform temperature solves the step (and the steady) equations, for solid stacks, sinks, and coolant models.", "quantifier": "every uniform stack with any sinks and channels, any temperature", "why_tests_cant": "row sums of the matrix must cancel for every boundary case; a single missing boundary term is only visible in particular geometries", "anchors": ["sources/system_matrix.c: add_solid_column, add_liquid_column_4rm, add_liquid_column_2rm", "sources/power_grid.c: update_source_vector", "sources/channel.c: get_convective_term"]}
{"id": "C24", "title": "Energy is conserved at each step", "statement": "The change of stored heat during a step equals injected power minus heat leaving through the sinks (and, with coolant, plus inlet minus outlet enthalpy flow).", "quantifier": "every uniform stack, every state, every power input, every step", "why_tests_cant": "column sums of the matrix must cancel for every geometry", "anchors": ["sources/system_matrix.c", "sources/thermal_data.c: fill_system_vector, emulate_step", "sources/power_grid.c: update_source_vector"]}
{"id": "C25", "title": "Temperatures obey the maximum principle and are monotone in power", "statement": "In a solid stack temperatures never fall below the smaller of the initial minimum and the ambient temperature when powers are non-negative, and raising any power, the ambient or any initial temperature never lowers any temperature at any later time; likewise no cell of a steady state of such a stack with non-negative powers is colder than both ambients, with powers that are not positive none is hotter than both, and raising powers or ambients lowers no steady temperature. (With flowing coolant neither holds: a chip and coolant at 300 K with any positive power have, after one step, an inlet coolant cell below 300 K.)", "quantifier": "every solid stack, every non-negative power trace, any number of steps", "why_tests_cant": "quantifies over all traces, all geometries and unbounded time", "anchors": ["sources/system_matrix.c: add_solid_column", "sources/thermal_data.c: emulate_step, fill_system_vector"]}
{"id": "C26", "title": "A floorplan element's power is fully distributed", "statement": "For each floorplan element aligned with the grid, the power injected over all cells of its layer sums to exactly the element's power value, each covered cell receiving a share proportional to the area of the element it contains and no other cell receiving any.", "quantifier": "every element made of any number of rectangles, any position and size inside the chip, any grid (including 4RM non-uniform column lengths)", "why_tests_cant": "partial overlaps at the borders for all alignments", "anchors": ["sources/floorplan_matrix.c: floorplan_matrix_fill, floorplan_matrix_multiply", "sources/ic_element.c: align_to_grid", "sources/floorplan.c: fill_sources_floorplan"]}
{"id": "C27", "title": "The cells assigned to a rectangle are those it overlaps", "statement": "For a rectangle with positive sides inside the chip, the column and row ranges computed for it are exactly the cells it overlaps with positive area, and they lie inside the grid.", "quantifier": "every rectangle accepted by the parser, every grid accepted by the parser", "why_tests_cant": "real-valued positions; the edge cases are measure-zero sets that random tests miss", "anchors": ["sources/ic_element.c: align_to_grid, check_location", "bison/floorplan_parser.y: ic_elements"]}
{"id": "C28", "title": "Overlapping floorplan elements and repeated names are rejected", "statement": "A floorplan in which two rectangles overlap or in which two elements have the same name is not accepted, so that a power value and an inspection point refer to one well-defined area.", "quantifier": "every floorplan file", "why_tests_cant": "all pairs of rectangles and names", "anchors": ["bison/floorplan_parser.y: floorplan_element_list, floorplan_element", "sources/ic_element.c: check_intersection"]}
{"id": "C29", "title": "Layout overlap detection is exact up to the tolerance", "statement": "The rectangle intersection test used for layouts never reports an overlap for rectangles with disjoint interiors, is symmetric, and reports every overlap whose extent exceeds the tolerance.", "quantifier": "every pair of rectangles with positive sides", "why_tests_cant": "continuous domain", "anchors": ["sources/ic_element.c: check_intersection", "bison/layout_parser.y: layout"]}
{"id": "C30", "title": "Element temperature statistics are right", "statement": "For every floorplan element the reported maximum (minimum) is attained by one of its cells and bounds all of them, the average lies between them and is the mean over its cells, and the gradient is maximum minus minimum and never negative.", "quantifier": "every element with any number of rectangles, every temperature field", "why_tests_cant": "all temperature fields and shapes", "anchors": ["sources/ic_element.c: get_max_temperature_ic_element, get_min_temperature_ic_element, get_avg_temperature_ic_element", "sources/floorplan_element.c: get_*_temperature_floorplan_element"]}
{"id": "C31", "title": "Coolant outlet statistics describe the coolant", "statement": "The reported maximum, minimum, average and gradient of the coolant at the outlet are the maximum, minimum, mean and max-min difference over the coolant cells of the last row, never including wall cells.", "quantifier": "every channel model, grid and temperature field", "why_tests_cant": "all temperature fields; wrong only when a wall is hotter/colder than the coolant", "anchors": ["sources/channel.c: get_max_temperature_channel_outlet, get_min_temperature_channel_outlet, get_avg_temperature_channel_outlet, get_gradient_temperature_channel_outlet"]}
{"id": "C32", "title": "Each inspection point is written at exactly its instants", "statement": "During a run, a step point produces one record per simulated step, a slot point one record per completed slot, a final point exactly one record at the end; records carry the simulated time of that instant and points of one instant are served in declaration order.", "quantifier": "every set of inspection points, every run length and slot length", "why_tests_cant": "unbounded runs and arbitrary interleavings of declarations", "anchors": ["sources/output.c: add_inspection_point, generate_output, fill_output_message", "bin/3D-ICE-Emulator.c: main"]}
{"id": "C33", "title": "A temperature probe monitors the cell that contains it", "statement": "A Tcell point with coordinates inside the chip monitors the cell whose extent contains those coordinates and the location reported in the header is that cell's corner.", "quantifier": "every coordinate pair inside the chip, every grid", "why_tests_cant": "continuous coordinates, non-uniform columns", "anchors": ["sources/inspection_point.c: align_tcell", "sources/dimensions.c: get_cell_location_x"]}
{"id": "C34", "title": "Server answers every request as documented", "statement": "The server replies to each request with exactly the message documented for its type (none for reset, print and exit), in request order, keeps serving until exit, end of simulation or an error, and a client that disconnects ends the server.", "quantifier": "every finite sequence of client requests", "why_tests_cant": "all request histories", "anchors": ["bin/3D-ICE-Server.c: main", "include/types.h: MessageType_t"]}
{"id": "C35", "title": "Inserted powers reach the right floorplan elements", "statement": "Power values inserted in one request are appended to the elements' traces in stack order from the bottom die upward and in floorplan order within each die, each element receiving exactly one; if fewer values than elements are supplied the request fails.", "quantifier": "every stack, every list of values", "why_tests_cant": "all numbers of dies and elements", "anchors": ["sources/power_grid.c: insert_power_values", "sources/floorplan.c: insert_power_values_floorplan", "sources/floorplan_element.c: insert_power_values_floorplan_element"]}
{"id": "C36", "title": "Client decodes floorplan reports the server encodes", "statement": "The sequence of Tflp records the server puts in a reply (file name, header, number of elements, temperatures, for any number of inspection points) is decoded by the client into exactly the same records.", "quantifier": "every number of inspection points, names, headers and temperatures", "why_tests_cant": "variable-length fields; all lengths modulo the word size", "anchors": ["sources/inspection_point.c: fill_message_inspection_point, build_tflp_header", "bin/3D-ICE-Client.c: request_tflp_slot_output"]}
{"id": "C37", "title": "Number of steps per slot is slot time divided by step time", "statement": "For accepted decimal step and slot times the slot length is the integer part of slot/step, at least 1, computed without rounding surprises, and the run never divides by zero.", "quantifier": "every pair of decimal times with 0 < step <= slot", "why_tests_cant": "decimal fractions of any length", "anchors": ["bison/stack_description_parser.y: solver"]}
{"id": "C38", "title": "Ill-formed stacks are rejected", "statement": "A stack without die, with a channel at the top or bottom, with two consecutive channels, with a channel that was not declared, or with repeated element names is not accepted.", "quantifier": "every sequence of stack elements", "why_tests_cant": "all sequences", "anchors": ["bison/stack_description_parser.y: stack, stack_elements, stack_element"]}
{"id": "C39", "title": "Heat spreader is centred and covers the chip", "statement": "The spreader grid is the chip grid enlarged by the same whole number of cells on opposite sides, its cells over the chip correspond one to one to the top-layer cells, and mapping a layer cell to the spreader and back is the identity; a spreader smaller than the chip is refused.", "quantifier": "every chip grid and spreader size", "why_tests_cant": "all sizes and ratios", "anchors": ["sources/heat_sink.c: initialize_heat_spreader", "sources/dimensions.c: get_spreader_cell_offset_from_layer_coordinates, has_layer_underneath, get_layer_cell_offset_from_spreader_coordinates"]}
{"id": "C40", "title": "Changing the coolant flow rate equals rebuilding with it", "statement": "After updating the flow rate the system matrix and the coolant source terms are those that would result from building the simulation with the new flow rate, temperatures, time and pending powers are untouched, and converting a flow rate to internal units and back returns it.", "quantifier": "every stack with coolant, every sequence of flow rates, any time during the run", "why_tests_cant": "histories of updates", "anchors": ["sources/thermal_data.c: update_coolant_flow_rate", "sources/power_grid.c: update_channel_sources", "include/macros.h: FLOW_RATE_FROM_MLMIN_TO_UM3SEC"]}
{"id": "C41", "title": "Resetting restores the initial thermal state only", "statement": "After a reset all cells have the initial temperature, time and power traces are unchanged, and the trajectory that follows depends only on the remaining powers and the phase in the slot, not on earlier temperatures.", "quantifier": "every state, any history before and after the reset", "why_tests_cant": "equality of infinite families of runs", "anchors": ["sources/thermal_data.c: reset_thermal_state, emulate_step"]}
{"id": "C42", "title": "Sources of a slot depend only on that slot's powers", "statement": "The source vector built at a slot start is determined by the values consumed for that slot, the sinks and the coolant inlet; nothing of earlier slots remains in it, and it is constant during the slot.", "quantifier": "every history of slots", "why_tests_cant": "unbounded histories", "anchors": ["sources/power_grid.c: update_source_vector", "sources/floorplan_matrix.c: floorplan_matrix_multiply"]}
{"id": "C43", "title": "Material lookup honours the layout", "statement": "The material properties of a cell are those of the first layout area containing the cell centre, and those of the layer's own material when no area contains it.", "quantifier": "every layout and cell", "why_tests_cant": "all layouts", "anchors": ["sources/layer.c: get_thermal_conductivity, get_volumetric_heat_capacity", "sources/material_element.c: get_material_at_location", "sources/ic_element.c: ic_element_has_center"]}
{"id": "C44", "title": "Non-uniform grid assembly is symmetric, balanced and order independent", "statement": "With non-uniform grids, the matrix built from the list of thermal connections does not depend on the order in which parallel workers produced them, is symmetric for solid stacks, and each row sums to the storage term plus the conductance to ambient of that cell.", "quantifier": "every set of cells and connections, every order of the list (every thread schedule)", "why_tests_cant": "all thread schedules", "anchors": ["sources/system_matrix.c: add_solid_column_non_uniform", "sources/thermal_data.c: get_connections_in_layer, get_connections_between_layer"]}
{"id": "C45", "title": "Non-uniform bottom sink is balanced", "statement": "With a non-uniform grid and a bottom heat sink, heat exchanged with the board uses the same coefficient in the matrix and in the source vector, so that equilibrium at ambient temperature is preserved.", "quantifier": "every non-uniform stack with a bottom sink", "why_tests_cant": "all geometries", "anchors": ["sources/system_matrix.c: add_solid_column_non_uniform", "sources/power_grid.c: update_source_vector"]}
{"id": "C46", "title": "Steady state is the fixed point of the transient", "statement": "Temperatures unchanged by a transient step under given powers are exactly the solutions of the steady equations with the same powers; the steady result does not depend on the initial temperature.", "quantifier": "every stack and power input", "why_tests_cant": "all states", "anchors": ["sources/thermal_data.c: emulate_step, emulate_steady, fill_system_vector, fill_system_vector_steady", "sources/system_matrix.c: fill_system_matrix"]}
{"id": "C47", "title": "Client stops exactly at the termination slot", "statement": "With --until-minus-one the client simulates exactly the slots that precede the first slot whose values are all -1 (or nslots of them if fewer), sends none of the -1 values, and then closes the simulation.", "quantifier": "every power trace and every number of floorplan elements", "why_tests_cant": "unbounded traces", "anchors": ["bin/3D-ICE-Client.c: main"]}
{"id": "C48", "title": "Thermal conductances are positive and combine in series", "statement": "For positive geometry and material values every conductance of a solid cell toward a neighbouring cell is positive, the coupling of two cells is the series combination of the two half-cell conductances (never larger than either), and capacity is volume times volumetric heat capacity.", "quantifier": "every cell position, layer type and positive parameter values", "why_tests_cant": "continuous parameters and all positions", "anchors": ["sources/thermal_grid.c: get_conductance_top, get_conductance_bottom, get_conductance_north, get_capacity", "include/macros.h: PARALLEL"]}
{"id": "C49", "title": "Output-files transfer lists exactly the existing files", "statement": "The reply to an output files request announces exactly the number of records it contains, with each existing output file of the final, slot and step inspection points included once, in that order, with its name and full contents.", "quantifier": "every set of inspection points, files and contents", "why_tests_cant": "all file sets", "anchors": ["bin/3D-ICE-Server.c: main (TDICE_SEND_OUTPUT_FILES)", "sources/output.c", "sources/network_message.c"]}
{"id": "C50", "title": "Final power map shows the last simulated slot", "statement": "A power map requested at the final instant contains the powers that were dissipated in the last simulated slot.", "quantifier": "every run", "why_tests_cant": "all histories", "anchors": ["bin/3D-ICE-Emulator.c: main", "sources/thermal_data.c: emulate_step", "sources/power_grid.c: update_source_vector", "sources/inspection_point.c: generate_inspection_point_output"]}
{"id": "C51", "title": "Accepted layouts are unambiguous", "statement": "In an accepted layout file every material is known, appears once and has at least one area, every area lies inside the chip, and no two areas (of the same or of different materials) overlap beyond the tolerance, so that each point belongs to at most one material.", "quantifier": "every layout file and chip", "why_tests_cant": "all layout files", "anchors": ["bison/layout_parser.y", "sources/ic_element.c: check_intersection, check_location"]}
{"id": "C53", "title": "Non-uniform power distribution", "statement": "On a non-uniform grid each power value of a floorplan element is divided equally among the cells of that element in the source layer of its die; each step takes exactly one value from every element and the sources add up to the powers given plus the heat of the sinks: no power is lost, moved to another element or counted twice.", "quantifier": "every non-uniform stack without channels, every floorplan, discretization and power sequence", "why_tests_cant": "all stacks, floorplans and discretizations", "anchors": ["sources/power_grid.c: update_source_vector", "sources/thermal_data.c: get_cell_position"]}
{"id": "C54", "title": "Non-uniform cells tile the chip", "statement": "On a non-uniform grid the number of cells generated equals the number computed before the arrays are allocated, and in every layer the cells cover the chip without gaps or overlaps: every point of the chip lies in exactly one cell of each layer, whatever the number of parts each floorplan element and layer is divided into.", "quantifier": "every stack file accepted in non-uniform mode, every discretization and every point of the chip", "why_tests_cant": "stacks, floorplans, discretizations and points are unbounded; a test looks at a few grids", "anchors": ["sources/thermal_data.c: get_cell_position, thermal_data_build", "sources/stack_element.c", "sources/floorplan_element.c", "sources/ic_element.c"]}
{"id": "C52", "title": "Non-uniform conductances follow the geometry", "statement": "On a non-uniform grid two cells are coupled in the system matrix exactly when they share a border in the same layer or overlap in consecutive layers, once per pair, and the coefficient is minus the series of the two half-cell conductances computed with the length (or area) really shared; all the other pairs have a zero coefficient.", "quantifier": "every stack of dies and layers accepted in non-uniform mode, every discretization, every pair of cells and every schedule of the parallel loops", "why_tests_cant": "the contacts depend on arbitrary rectangles and discretizations and on the thread schedule; a test sees a few arrangements", "anchors": ["sources/thermal_data.c: get_minkowski_difference, get_overlap_area, get_connections_in_layer, get_connections_between_layer", "sources/thermal_grid.c: get_conductance_non_uniform", "sources/system_matrix.c: add_solid_column_non_uniform"]}
{"id": "C55", "title": "Inspection points on non-uniform grids", "statement": "On a non-uniform grid the value reported for a floorplan element is the maximum, minimum, average or gradient of the temperatures of exactly the cells of the source layer that lie in the element; a probe reports the temperature of the cell that contains its point; a thermal or power map holds the values of the cells of its layer, one each, in the order of the list of cells.", "quantifier": "every stack accepted in non-uniform mode, every floorplan and discretization, every temperature vector, quantity, point and layer", "why_tests_cant": "floorplans, discretizations, points and temperatures are unbounded, and a wrong cell gives a plausible temperature", "anchors": ["sources/inspection_point.c: generate_inspection_point_output, fill_message_inspection_point, get_non_uniform_layer_cell_count", "sources/ic_element.c: get_max_temperature_ic_element, get_min_temperature_ic_element, get_avg_temperature_ic_element", "sources/floorplan_element.c", "sources/stack_element.c: print_thermal_map_stack_element", "sources/thermal_data.c: get_cell_position"]}
{"id": "C56", "title": "A non-uniform grid that asks for the uniform cells is the uniform simulation", "statement": "If a non-uniform stack description discretizes every layer and every floorplan element into the cells of the regular grid (floorplans aligned to the grid and covering the chip once, one material per layer), then the program computes the same thermal problem in both modes up to the numbering of the cells: the same cells, the same matrix coefficients and heat capacities, hence the same solutions for every right-hand side, and during every slot the same sources.", "quantifier": "every accepted stack of dies and layers with a conventional top sink, every discretization that yields the regular cells, every analysis, every power trace, every cell numbering", "why_tests_cant": "the two modes are two independent implementations; a comparison on sample stacks cannot show that they agree for every geometry, material, trace and order of the floorplan elements", "anchors": ["sources/thermal_data.c:155-710 (get_cell_position)", "sources/thermal_data.c:712-970 (connections)", "sources/system_matrix.c:add_solid_column", "sources/system_matrix.c:add_solid_column_non_uniform", "sources/power_grid.c:update_source_vector"]}
{"id": "C57", "title": "Coolant exchange follows the declared channel", "statement": "In the system matrix of a uniform grid built from an accepted stack file with a channel, every coefficient of the channel layers is the one the declaration asks for. A 4RM coolant cell is coupled to the walls at its sides, to the solid layer below and to the one above by the declared side, bottom and top heat transfer coefficient times the contact area in series with half the solid cell, and to nothing else but the next and previous coolant cells. In the 2RM and pin-fin models coolant meets its bottom and top wall through the declared coefficient (or the correlation of the declared pin-fin arrangement) times the area, the solid fraction (one minus porosity) conducts between the two walls and, for 2RM only, along the channel, and no heat crosses columns. Along the flow, cells are coupled by plus and minus half of the heat capacity rate of the stream (volumetric heat capacity times the flow through that column of cells); in a channel of at least two rows the whole stream leaves in the last row and enters in the first. Coolant and walls store the heat of their own volume.", "quantifier": "every accepted stack file, channel model, geometry, flow rate, row and column, transient or steady", "why_tests_cant": "a test compares temperatures of a few chips; a wrong coefficient for one wall, one model or one area changes them slightly and must be excluded for all geometries and channel models", "anchors": ["sources/thermal_grid.c:get_conductance_top", "sources/thermal_grid.c:get_conductance_bottom", "sources/thermal_grid.c:get_capacity", "sources/channel.c:get_convective_term", "sources/system_matrix.c:add_liquid_column_4rm", "sources/system_matrix.c:add_liquid_column_2rm", "sources/system_matrix.c:add_virtual_wall_column_2rm", "include/macros.h"]}
{"id": "C58", "title": "Channels on non-uniform grids", "statement": "On a non-uniform grid built from an accepted stack file with a channel: the layers of the channel are divided into rows of equal width and the declared columns, every point of the chip lies in exactly one cell of every layer; a wet cell passes half of the heat capacity rate of its stream to the next row and takes as much from the previous one, the whole stream enters in the first row and leaves in the last one, and nothing else is created: the coefficients of a column or row of the matrix add up to the heat stored, the exchange with the ambient and the stream; a cell under or over the channel exchanges heat with the cells of the channel it overlaps, over the common area, through the declared film of the coolant or half the wall; inside the channel only the cells that touch exchange heat, through the declared films and the walls (in the 2RM and pin fin models in the fraction of the area they take); pairs of solid cells are coupled as without channels.", "quantifier": "every accepted stack file with any mixture of dies, layers and channels, channel model, discretization, geometry, row and column, transient or steady, and every schedule of the assembly", "why_tests_cant": "the contacts depend on the relative position of arbitrary cells; a finite number of chips and divisions cannot show that no pair is missed, counted twice or given the coefficient of another surface", "anchors": ["sources/thermal_data.c:get_cell_position", "sources/thermal_data.c:get_connections_in_layer", "sources/thermal_data.c:get_connections_between_layer", "sources/thermal_grid.c:get_conductance_non_uniform", "sources/thermal_grid.c:get_conductance_non_uniform_y", "sources/channel.c:get_convective_term_nonuniform", "sources/system_matrix.c:add_solid_column_non_uniform"]}
{"id": "C59", "title": "Sources, heat balance and equilibrium with channels on non-uniform grids", "statement": "On a non-uniform grid built from an accepted stack file with any number of channels: in each step the first cell of every column of coolant receives the heat capacity rate of the stream times the declared inlet temperature, every cell of a floorplan element receives its share of the power, the other cells receive only the heat of the sinks, and nothing is lost or counted twice. The heat stored by all the cells in a step equals the power of all the elements, plus what is exchanged with the ambient, plus, for every column of coolant, the stream times the difference between the inlet temperature and the temperature of the last cell of that column. A stack without power whose ambient and coolant have its temperature keeps it.", "quantifier": "every accepted stack file with any mixture of dies, layers and channels, channel model, discretization, power values, temperatures before the step, transient or steady", "why_tests_cant": "a balance observed on one chip does not exclude a lost inlet, a column counted twice or a wrong capacity on another discretization or channel model", "anchors": ["sources/power_grid.c:update_source_vector", "sources/power_grid.c:power_grid_fill", "sources/thermal_grid.c:get_capacity_non_uniform", "sources/channel.c:get_convective_term", "sources/system_matrix.c:add_solid_column_non_uniform", "sources/thermal_data.c:fill_system_vector"]}
{"id": "C60", "title": "Simulation on non-uniform grids: slots, power values, inserted powers, heat", "statement": "On a non-uniform grid, after any history of steps, insertions of power values and resets: simulating a slot always returns and stops at the next slot boundary; every slot takes exactly one power value from each floorplan element and the simulation ends exactly when the shortest trace is used up, without touching time or temperatures; a slot that cannot start takes values only from the elements before the first empty one; inserted values go to the elements bottom-up in the order of the stack file, or the request fails; the wrong kind of analysis is refused without effect; every step stores exactly the power of the values of its slot plus what is exchanged with the ambient and the coolant, and a steady state balances them; the schedule of the threads that compute the connections has no effect on any result.", "quantifier": "every accepted stack file and discretization, any solver and heat-sink callback, every sequence of steps, insertions and resets, every thread schedule, any number of slots up to 2^32 steps", "why_tests_cant": "histories of interleaved steps, insertions and resets, and thread schedules, are unbounded; a test sees one of them on one grid", "anchors": ["sources/thermal_data.c:emulate_step", "sources/thermal_data.c:emulate_slot", "sources/thermal_data.c:emulate_steady", "sources/thermal_data.c:fill_system_vector", "sources/thermal_data.c:reset_thermal_state", "sources/power_grid.c:update_source_vector", "sources/power_grid.c:insert_power_values", "sources/floorplan.c:insert_power_values_floorplan"]}
{"id": "C61", "title": "Changing the coolant flow rate on a non-uniform grid", "statement": "After update_coolant_flow_rate on a simulation with a non-uniform grid, at any point of any history of steps, insertions, resets and earlier changes, the system matrix, the cell capacities and the connections are those of a simulation built from the same stack file with the channel declared with the new rate; temperatures, time and pending power values are untouched, and a failed factorization is reported. The inlet terms of the source vector should be those of the new rate for the rest of the slot, and no other source should change. This holds if the inlets have the positions they would have in a uniform grid; otherwise the real inlets keep the old term until the next slot, the new terms overwrite the sources of other cells (their power is lost) and can be written behind the end of the vector. The next slot is right again.", "quantifier": "every stack with a channel, every non-uniform discretisation, every history of calls, every flow rate and every moment of a slot", "why_tests_cant": "the positions that are overwritten depend on how the layers below each channel are discretised and on the moment of the call; a test sees one grid", "anchors": ["sources/thermal_data.c:update_coolant_flow_rate", "sources/power_grid.c:update_channel_sources", "sources/power_grid.c:update_source_vector", "sources/dimensions.c:get_layer_area"]}
{"id": "C62", "title": "Transient steps on non-uniform grids with channels have exactly one solution", "statement": "On a non-uniform grid with any arrangement of dies, layers and channels (4RM, 2RM, pin fins), with positive sizes, materials and heat-transfer coefficients, porosity between 0 and 1 and a flow that is not negative, the linear system of a transient step has exactly one solution for every right-hand side; so in every reachable state with power values left a step never fails, whatever the temperatures, when the solver finds unique solutions.", "quantifier": "every accepted stack file, discretization, channel model, flow rate, positive step, right-hand side, every reachable state", "why_tests_cant": "non-singularity of one matrix does not give that of the matrices of other stacks; with coolant the matrix is neither symmetric nor diagonally dominant", "anchors": ["sources/system_matrix.c:add_solid_column_non_uniform", "sources/system_matrix.c:solve_sparse_linear_system", "sources/thermal_grid.c:get_conductance_non_uniform", "sources/thermal_data.c:emulate_step"]}
{"id": "C63", "title": "A pluggable heat sink on a non-uniform grid exchanges heat with the cells of the spreader", "statement": "On a non-uniform grid with a pluggable top heat sink the cells of the spreader are the last cells, one for each row and column of the chip, and each cell has its heat capacity in the array, which has room for exactly these values. In each step the callback gets the temperatures of the cells of the spreader, row by row; the flows it returns leave exactly these cells, and the sources of the stack are those of the slot in every step of it. The heat stored in a step is the power plus what coolant and bottom sink bring minus what the callback takes; steps fail only if callback or solver do. With spreaders larger than the chip this is false: capacities are written behind the end of the array, temperatures of cells of the stack are passed to the callback, and the power of these cells is overwritten.", "quantifier": "every accepted stack file with a pluggable sink, every discretization, callback with any internal state, history of steps, insertions, resets and flow changes", "why_tests_cant": "which cells are read and written depends on the sizes of chip, spreader and discretization and on the step within the slot; the callback is arbitrary", "anchors": ["sources/thermal_data.c:pluggable_heatsink", "sources/dimensions.c:get_spreader_cell_offset", "sources/power_grid.c:power_grid_fill", "sources/thermal_data.c:get_cell_position", "sources/heat_sink.c:get_spreader_capacity"]}
{"id": "C64", "title": "Whole simulations agree between uniform and non-uniform mode when the grids are the same", "statement": "If a non-uniform stack description asks for exactly the cells of the uniform grid (same cells, same floorplan elements with the same power traces), then every sequence of library calls (steps, insertions of powers, resets, flow changes) has the same results in both modes, leaves the same simulated time and the same power values waiting, and after every call corresponding cells have the same temperature; likewise whole slots and the steady state.", "quantifier": "every pair of accepted descriptions with the same cells and every finite sequence of calls, before and after the end of the traces", "why_tests_cant": "the two modes are implemented by separate code (grid, matrix, sources, capacities), cells are numbered differently, and agreement must persist over an unbounded history", "anchors": ["sources/thermal_data.c:emulate_step", "sources/thermal_data.c:emulate_slot", "sources/thermal_data.c:emulate_steady", "sources/power_grid.c:update_source_vector", "sources/system_matrix.c:fill_system_matrix"]}
{"id": "C65", "title": "Input files are free-format text", "statement": "However the tokens of a stack, floorplan or layout file are laid out - with any white space, line comments and block comments between them - the parser sees exactly those tokens, numbers with the value they denote in decimal notation, names and paths literally; in particular a text has at most one reading as tokens. Known violations: a block comment whose text ends in a star before the closing */ is not closed, so that up to the next comment end (usually the end of the file) everything is silently ignored; characters that start no token are silently skipped; so in floorplans .5 is read as 5.", "quantifier": "every token sequence, every spelling of each token, every sequence of white space and comments between them, every following text", "why_tests_cant": "there are infinitely many texts for a token sequence; longest match and rule order interact, and a test shows only that one layout of one file is read correctly", "anchors": ["flex/stack_description_scanner.l", "flex/floorplan_scanner.l", "flex/layout_scanner.l"]}
{"id": "C66", "title": "The grammar of the three input files", "statement": "A stack file is accepted by the syntax check exactly when its tokens are the written form of a document - materials, optional heat sinks, optional cooling, dimensions, layers, dies, stack, solver, output points, in this order, each construct with its keywords, values and punctuation in the documented order - and then it is read as that document: every value ends up in the field whose keyword it follows. No token sequence has two readings. The same holds for floorplan files (elements with one rectangle or a list of rectangles, optional material, discretization and powers) and for layout files.", "quantifier": "every sequence of tokens, every document, of any number of materials, layers, dies, elements, rectangles, power values and output points", "why_tests_cant": "both directions range over all token sequences: that nothing but documents is accepted, and that each document has only one reading, cannot be observed on example files", "anchors": ["bison/stack_description_parser.y", "bison/floorplan_parser.y", "bison/layout_parser.y"]}
{"id": "C67", "title": "Names, defaults and order of declarations in the input files", "statement": "The description of the simulation built from a stack file (and the floorplan and layout files it names) is the one the file means: every material, layer, die, stack element and floorplan element referred to is the one declared with that name, wherever in its section it is declared; units are converted and what is left out has its documented default (equal conductivities, equal heat transfer coefficients, outer walls as wide as the inner ones, uniform grid, one core, output at the end, as many columns and rows as cells in the chip). The file is refused exactly when a name is declared twice or refers to nothing, a needed file cannot be read, a time or number of cores is not positive, or the stack or the dimensions are ill-formed. Consequently the order of declarations, declarations that are not used, writing out a default, new names for materials, layers and dies, and the layout of the text do not change the simulation.", "quantifier": "every document, with any number of declarations, in any order, any names, any files it refers to, and every text of it", "why_tests_cant": "the claims relate all documents to all their reorderings, extensions, renamings and texts; examples show single pairs", "anchors": ["bison/stack_description_parser.y", "bison/layout_parser.y", "bison/floorplan_parser.y", "sources/list_template.c", "sources/stack_file_parser.c", "sources/layer.c", "sources/floorplan.c"]}
{"id": "C68", "title": "The program from its input files to its output files", "statement": "Given a stack file (and the floorplan and layout files it names) whose numbers make sense - positive sizes, conductivities, capacities and heat transfer coefficients, a chip that is a whole number of cells, floorplan elements inside it, coolant flows that are not negative - and whose references are all to declarations, the emulator accepts it, and if the output files can be created and the matrix factored it simulates exactly what the files say: starting from the initial temperature of the file every step satisfies the heat equation of the stack with the power values of the files for that slot, and is its only solution; the simulation lasts as many slots as the shortest list of power values; stored heat is input power minus what sinks and coolant remove; without cooling no cell gets colder than the coldest ambient (nor, with no power, hotter than the hottest), and with everything at one temperature nothing changes; a steady run gives the only steady state. The output files receive the records of the requested points at the requested instants. The run always ends, with one outcome, which does not depend on the layout of the text or the order of declarations; a run that fails writes nothing. Known violation: a failure of the solver does not change the exit status, and in a steady run the heat flows are then written as temperatures.", "quantifier": "every set of texts of the input files, every stack (any elements, any cooling model, any floorplans, any number of power values), every solver that returns solutions, every plug-in, every set of files that can be opened", "why_tests_cant": "the claims hold for all input files, and uniqueness, bounds and energy balance must hold at every step of every run; tests compare a few runs with recorded numbers", "anchors": ["bin/3D-ICE-Emulator.c", "sources/stack_file_parser.c", "bison/stack_description_parser.y", "sources/thermal_data.c", "sources/output.c", "sources/heat_sink.c"]}
{"id": "C69", "title": "The program on a non-uniform grid: which files run, and what is written when", "statement": "Given sensible input files (as in C68) that ask for a non-uniform grid and have a heat sink on top, the emulator accepts them under the same conditions as on a uniform grid, and if the output files can be created and the matrix factored it runs to the end: it writes conductance_layer.txt, then after every step what the 'step' inspection points ask for, at the end of every slot what the 'slot' points ask for and at the end what the 'final' points ask for, each into its own file and with the simulated time; a steady run writes the final points once. A transient run lasts as many slots as the shortest list of power values of the floorplan files, unless the solver fails. There is one outcome (status, files, final temperatures), whatever the order in which the threads find the connections between cells, the layout of the text or the order of declarations; a run that fails has written no results. The same description is never simulated in both modes.", "quantifier": "every set of texts of the input files, every stack (any elements, any cooling model, any floorplans, any number of power values), every schedule of the threads, every solver and plug-in, every set of files that can be opened", "why_tests_cant": "the claims hold for all input files and all thread schedules; tests run a few files with the schedules that happen to occur", "anchors": ["bin/3D-ICE-Emulator.c", "sources/thermal_data.c", "sources/output.c", "sources/inspection_point.c", "sources/stack_element.c", "bison/stack_description_parser.y", "bison/floorplan_parser.y"]}
{"id": "C70", "title": "On a non-uniform grid, what the files say is what the temperatures obey", "statement": "With `non-uniform 1`, stack, floorplan and layout files whose numbers make sense, whose layers, dies and floorplan elements are divided in at least one column and one row, and whose borders lie on a raster wider than a nanometre: every step made while power values are left succeeds; the run goes on until the shortest list of power values is used up and ends there without an error; in step k the heat stored by the cells equals the sum of the power values number k/(steps per slot) of the floorplan files plus the exchange with the ambient of the stack file plus what the coolant carries from the inlet to the outlet (minus what the plug-in of a pluggable sink on a spreader as large as the chip takes); in steady state these are in balance; and without power and without a bottom sink, with initial, ambient and inlet temperature equal, no temperature ever changes.", "quantifier": "all stack, floorplan and layout files that meet the conditions, all stacks, divisions, materials and channel models, all step numbers, all exact solvers and plug-ins", "why_tests_cant": "the files, the divisions and the lengths of the runs are unbounded; a test compares a few temperatures of a few chips", "anchors": ["bin/3D-ICE-Emulator.c:main", "sources/thermal_data.c:thermal_data_build", "sources/thermal_data.c:emulate_step", "sources/thermal_data.c:get_cell_position", "sources/power_grid.c:update_source_vector", "sources/system_matrix.c:fill_system_matrix"]}
{"id": "C71", "title": "The files written for a non-uniform grid hold the values of the cells the stack file asked for", "statement": "With `non-uniform 1`: after every step the program appends, for the `step` points of the stack file in their order, after every slot also for the `slot` points, and at the end (in steady state: once) for the `final` points and those without an instant: Tcell, the time and the temperature of the one cell of the source layer of the die (of the layer, of the channel) that contains the point; Tflp and Tflpel, the requested quantity over the cells of that layer inside the rectangle of each (of the named) floorplan element; Tmap and Pmap, the temperatures and heat sources of the cells of that layer in their order, and their positions in a file named after the element; the coolant maximum and minimum over the cells of the channel at the outlet; T3D, all the cells with their height and temperature, in a file numbered by the step or the slot. conductance_layer.txt lists for every die, from the bottom, the number of cells, the area, the height and the vertical conductance of each layer. Files that are appended to hold all their records in order; those that are created anew hold the last ones.", "quantifier": "all stack, floorplan and layout files that make sense, all points and instants, all run lengths, all cells and temperatures, all solvers", "why_tests_cant": "the points, the grids and the run lengths are unbounded; a wrong offset of a layer or of a cell shows only for some stacks", "anchors": ["sources/output.c:generate_output", "sources/inspection_point.c:generate_inspection_point_output", "sources/stack_element.c:get_source_layer_offset", "sources/stack_element.c:print_thermal_map", "sources/stack_element.c:print_thermal_map_3D", "sources/thermal_data.c:print_conductance_map_non_uniform", "bin/3D-ICE-Emulator.c:main"]}
{"id": "C72", "title": "On a non-uniform grid the steady state exists, is unique and is the one the program finds", "statement": "A steady analysis with `non-uniform 1`, a conventional heat sink on top, floorplans without gaps and no channel directly on another: the equations have exactly one solution, with or without coolant and in any of its models, flowing or not; emulate_steady ends successfully on every reachable state that has power values left, and the program with status success; the temperatures do not depend on what was simulated before, on the order in which the threads found the connections, or on which correct solver is used; and in them the power of the files, the exchange with the ambient and what the coolant carries balance.", "quantifier": "all stack, floorplan and layout files that make sense, all stacks, divisions, materials and channel models, all reachable states, all schedules of the threads, all correct and complete solvers", "why_tests_cant": "grids are unbounded and irregular; a singular system shows only where some cell has no path to the heat sink", "anchors": ["sources/thermal_data.c:emulate_steady", "sources/thermal_data.c:get_cell_position", "sources/thermal_data.c:get_connections_in_layer", "sources/system_matrix.c:fill_system_matrix", "bin/3D-ICE-Emulator.c:main"]}
{"id": "C73", "title": "A floorplan file that the library writes can be read again", "statement": "After a floorplan file has been read, and whatever power values have been appended and consumed since, generate_floorplan_file writes a file that is accepted again and declares the same elements in the same order, with their rectangles rounded to one digit after the point and the values still to come rounded to three, ties to even; if the numbers of the original have no more digits than that, and nothing has been simulated, exactly the same rectangles and values. Refuted: as soon as one element has no values left the file is refused; the materials and the discretization of elements are lost; and what generate_stack_description_file writes is never accepted, for any stack, because the three conductivities of a material are written without commas.", "quantifier": "all floorplan files and histories of power values (fewer than 2^31 at a time), all stack files", "why_tests_cant": "numbers, numbers of elements and histories are unbounded, and rounding matters at every digit", "anchors": ["sources/floorplan_file_parser.c:generate_floorplan_file", "sources/floorplan.c:floorplan_print", "sources/floorplan_element.c:floorplan_element_print", "sources/ic_element.c:ic_element_print", "sources/powers_queue.c:powers_queue_print", "sources/stack_file_parser.c:generate_stack_description_file", "sources/material.c:material_print"]}
{"id": "C74", "title": "Bounds and monotonicity of temperatures on non-uniform grids", "statement": "On a non-uniform grid without coolant: if no power is negative, no cell ever becomes colder than the lower one of the initial and the ambient temperature, and in steady state than the ambient; if no power is positive and there is no bottom sink, no cell becomes hotter than the higher one of the two. Two input files that describe the same chip, the second with powers, ambient temperatures and an initial temperature that are not lower, are divided into the same cells, and after every step, and in steady state, every cell of the second run is at least as hot as the same cell of the first.", "quantifier": "all sensible input files without coolant for non-uniform grids, all numbers of steps, all histories of inserted powers, all orders in which the threads deliver connections, all correct solvers", "why_tests_cant": "numbers, sizes, histories and schedules are unbounded; a wrong sign of one coefficient may show only for some geometry", "anchors": ["sources/thermal_data.c:emulate_step", "sources/thermal_data.c:fill_system_vector", "sources/system_matrix.c:add_solid_column_non_uniform", "sources/power_grid.c:update_source_vector", "sources/thermal_data.c:emulate_steady"]}
{"id": "C75", "title": "Hotter input files give hotter results; steady results stay on the right side of the ambients (uniform grid)", "statement": "Run 3D-ICE-Emulator on two sets of files that describe the same stack without coolant and pluggable sink, the second set with power values, sink ambient temperatures and initial temperature that are not lower (output instructions may differ). Both runs have the same cells, and after the same number of successful steps, or in the steady state, every cell of the second run is at least as hot. In a steady run with a conventional sink, no cell is colder than both ambients if no power value is negative, and none is hotter than both if none is positive.", "quantifier": "every pair of accepted, physically sensible sets of input files so related, every number of steps, every correct solver", "why_tests_cant": "quantifies over pairs of input files of every size and over unbounded time", "anchors": ["bin/3D-ICE-Emulator.c: main", "sources/thermal_data.c: emulate_step, emulate_steady, fill_system_vector, fill_system_vector_steady", "bison/stack_description_parser.y", "bison/floorplan_parser.y"]}
{"id": "C76", "title": "Every 3D map has a file of its own", "statement": "On a non-uniform grid, a point T3d(\"name.vtk\", step) leaves after the run one file per step, name1.vtk, name2.vtk, ...; each contains exactly the boxes of all the cells and their temperatures after that step. With slot, the file with number k contains the map at the end of slot k; a final point (or one with no instant) leaves one file with the map of the end, in transient and in steady simulations. This holds if the names of the points up to their first dot differ and do not end with a digit, and no other point writes to a file called like a map. Refuted: with two points of the same name, one per step and one per slot, file k ends up with the map of the end of slot k and the map of step k is lost; a name that begins with a dot (\"./maps/m.vtk\", \"../m.vtk\") is cut to nothing, so the maps go to 1.vtk, 2.vtk, ... in the current directory and nothing is written where it was asked for; on a uniform grid the point is accepted and no map is ever written.", "quantifier": "all sensible input files, all numbers of steps and slots, all names of files, all solvers and plug-ins", "why_tests_cant": "quantifies over all runs and lengths, and over all combinations of names; a test sees one set of names and a few steps", "anchors": ["sources/stack_element.c: print_thermal_map_3D (289-412)", "sources/inspection_point.c: generate_inspection_point_output (594-890)", "bin/3D-ICE-Emulator.c: main (158-216)", "bison/stack_description_parser.y: inspection_point (2142)"]}
{"id": "C77", "title": "Copies are independent and all memory is freed exactly once", "statement": "For every type of object of the library (strings, materials, layers, layouts, floorplans with their elements, power queues and matrices, dies, heat sinks, channels, stack elements, inspection points, dimensions, and the typed lists of them): whatever objects are copied to each other, cloned, destroyed and freed, in any order and any number of times (no object is copied to itself), no freed memory is used and nothing is freed twice; a copy has the value of its source, at all depths, and shares no memory with it, so that neither can change the other; every allocated block has exactly one owner, and when all the objects are destroyed the heap is as before. Destroying a stack description frees everything it owns (the channel that its stack elements refer to once) and nothing else. Refuted: the dimensions of a non-uniform grid whose cell array is built share that array with their copy, so destroying both frees it twice; the initialisation function of a plug-in heat sink is neither initialised nor copied, so a clone has an indeterminate pointer there.", "quantifier": "all values of all sizes (lengths of lists, names, traces), all heaps, all histories of copies, clones and destructions over any number of objects", "why_tests_cant": "leaks, double frees and shared memory depend on the history and on which optional parts exist; a test runs one history on a few sizes, and reading freed memory usually goes unnoticed", "anchors": ["sources/list_template.c: copy, destroy, insert_end (74-109, 244-283)", "sources/material.c, layer.c, material_element.c, ic_element.c, floorplan_element.c, floorplan_matrix.c, floorplan.c, die.c, heat_sink.c, channel.c, stack_element.c, inspection_point.c, output.c, dimensions.c, powers_queue.c, string_t.c: _init, _copy, _destroy, _clone, _free", "sources/stack_description.c: stack_description_destroy (60-75)"]}
{"id": "C78", "title": "Building the thermal data either succeeds or leaves no trace, and destroying it gives everything back", "statement": "For every memory, every stack, every choice of heat sinks and every pattern of failing allocations: building the thermal data returns, using and freeing only what is allocated; it succeeds if and only if all allocations succeed, the stack can be simulated (no two heat sinks on the same layer, no pluggable heat sink with 4-resistor channels) and the matrix is not singular. On success the thermal grid contains exactly the layers of the stack, bottom-most first, with the names, materials, heights and layouts of the description (those of channels made of the wall material), nothing of the stack description has changed, and destroying the thermal data gives back exactly what was allocated. If an allocation fails, whichever it is, everything is given back at once. Refuted: if the stack cannot be simulated, the two arrays of the thermal grid and all that the layers own are lost; if the matrix is singular the permuted matrix is lost; after any failed construction destroying the thermal data is undefined behaviour; so is destroying it twice, and destroying it when it was initialised and never built.", "quantifier": "all heaps, all stacks of any number of elements and layers, all heat sinks, all subsets of allocations that fail", "why_tests_cant": "there are dozens of allocations, each of which can fail after any stack was read; tests run with enough memory, and a leak or a second free after an error goes unnoticed", "anchors": ["sources/thermal_data.c: thermal_data_init, thermal_data_build, thermal_data_destroy (52-63, 1034-1232, 1252-1264)", "sources/thermal_grid.c: thermal_grid_build, thermal_grid_fill, thermal_grid_destroy (48-320)", "sources/power_grid.c: power_grid_build, power_grid_destroy (46-217)", "sources/system_matrix.c: system_matrix_init, system_matrix_build, allocate_L_Matrix, allocate_U_Matrix, do_factorization, system_matrix_destroy (46-520)"]}
{"id": "C79", "title": "The SystemC wrapper passes powers and temperatures between a SystemC simulation and the server", "statement": "For every server and every state it can reach: the wrapper learns the number of floorplan elements of the stack; a list of powers is sent if and only if it has that many values, the server then never refuses it, each element receives its value in the order of the list, and the wrapper is told; a request simulates one slot, and the wrapper continues if and only if the slot was completed; for inspection points with one value (cell, floorplan element, coolant outlet) the wrapper returns exactly one value per asked point, in the order of declaration, the one that is written in the output file. Refuted: in the file of a thermal or power map every cell holds the value of the next cell and the last one a value of no cell; for a floorplan point the wrapper returns the length of the name of the output file instead of temperatures; the announced check that the times of server and SystemC agree never stops anything, and the time read is below 2^-1042 s whatever is sent; if the connection is lost, sending powers reports success and asking for temperatures or maps reports no result and no error.", "quantifier": "all servers, all reachable states, all lists of powers, all instants, types and quantities of output, all sizes of maps, all words received", "why_tests_cant": "the wrapper needs SystemC and a running server and has no tests; that the order of values and points agrees on both sides, for any stack and history, or that a check can never fire, is not shown by runs", "anchors": ["sources/IceWrapper.cpp: getNumberOfFloorplanElements (93-107), sendPowerValues (109-142), simulate (144-164), getTemperature (166-206), getMap (208-264)", "include/IceWrapper.h: class IceWrapper", "bin/3D-ICE-Server.c: main (339-624)"]}
