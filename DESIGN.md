# A Lean 4 model of 3D-ICE

Everything below is about a *model* of the C sources in /repo, written by reading them; the code is never run.

## 1. Approach

* `lean/Verif/Model/` holds the model, roughly one module per C translation unit. Every definition cites the file and the lines it
  models, and says where it simplifies. `lean/Verif/Lemmas/` holds helper lemmas and concrete stacks used as examples,
  `lean/Verif/Props/` the property theorems: in each file a section *Specification* (definitions a reader of the English property
  can check without the proofs), the proofs, the theorems named after the property (`C21_…`), and `example`s that show that their
  hypotheses hold for concrete, non-trivial stacks, grids, messages or runs.
* C functions that mutate through pointers become functions returning the new state. Loops become folds or structural recursion. A
  loop whose end is not obvious is an inductive relation (`SlotRun`, `Loop`, `Serve`, `Scaled`); theorems then show that it ends.
* Undefined behaviour (access outside an array, division by zero, null pointer) is an explicit outcome (`none`, `ub`), or the
  comment of the definition says which theorem excludes it.
* `uint32_t` is `Nat` where no wrap-around can occur in the modelled range, and reduced modulo 2^32 where it can.
* `double` is an arbitrary linearly ordered field `K`, so every numeric theorem holds in exact arithmetic, for ℚ and ℝ alike.
  Rounding is modelled only where it changes the answer: the slot length (C37, binary64) and the order of additions in
  the diagonal of non-uniform grids (C44, an arbitrary rounding function).
* SuperLU is the relation `A x = b` (`Solves`) or an arbitrary partial function; the pluggable heat sink is an arbitrary function
  with its own state; the socket delivers bytes in arbitrary pieces with interruptions; files are what has been appended to them.
  OpenMP loops are modelled by every assignment of iterations to threads and every order of the merges.
* When the code violates a property, the violation is proved with a concrete witness (suffix `_violated`), and the strongest true
  variant found is proved with suffix `_partial` when it is weaker than the property.

## 2. Properties: model, proof, result

**C01 — Power trace queue is FIFO** (proved). Model: `Model/PowersQueue`: ring buffer `{mem,cap,size,start,stop}` with explicit undefined behaviour. Proof: refinement to `List`, induction on the list of operations. Theorems in `Props/PowersQueue.lean`.

**C02 — Power queue corner cases are harmless** (partial). Model: same, unbuilt and capacity-0 queues included. Proof: one theorem per operation; witness for capacity 0. Theorems in `Props/PowersQueue.lean`. Violated for a queue built with capacity 0.

**C03 — Typed lists keep insertion order and stay linked** (proved). Model: `Model/LinkedList`: heap of nodes with Next/Prev, header. Proof: representation invariant kept by each operation, induction on programs. Theorems in `Props/LinkedList.lean`. Copies and merges between two different lists; merging a list into itself is excluded and shown to break it.

**C04 — Network message words read back as inserted** (proved). Model: `Model/Net`: message as words of memory with its length cell. Proof: invariant over insertions. Theorems in `Props/Net.lean`.

**C05 — Extracting past the end of a message fails** (partial). Model: same. Proof: partial: indices outside the allocation; witness inside it. Theorems in `Props/Net.lean`. The code checks against allocated memory, so words past the end but inside the buffer are delivered.

**C06 — A message survives any fragmentation of the byte stream** (partial). Model: `Model/Net`: byte stream cut in arbitrary chunks, EINTR, end of stream. Proof: induction on the remaining bytes and on the schedule. Theorems in `Props/Net.lean`. Proved for messages below 2^30 words; violated above.

**C07 — Byte strings packed in messages round-trip** (proved). Model: `Model/Reply`: packing of bytes in words. Proof: induction on chunks of four. Theorems in `Props/Net.lean`.

**C08 — Steps, slots and simulated time agree** (partial). Model: `Model/Emulate`: state machine of `emulate_step`, `emulate_slot`. Proof: invariant on the number of steps, modulo 2^32. Theorems in `Props/Simulate.lean`. Proved for the 32-bit step counter; violated after 2^32 steps, when the counter wraps.

**C09 — A transient run lasts exactly as long as the shortest power trace** (proved). Model: same, with the queues of the floorplans. Proof: induction on the shortest queue. Theorems in `Props/Slots.lean`, `Props/Sources.lean`.

**C10 — Running out of power values consumes nothing** (partial). Model: same. Proof: partial when the first queue is the empty one; witness. Theorems in `Props/Slots.lean`. Violated for traces of different lengths: the call that reports the end consumes values.

**C11 — Simulation functions refuse the wrong analysis type** (proved). Model: same. Proof: case analysis. Theorems in `Props/Slots.lean`.

**C12 — emulate_slot ends exactly at the slot boundary** (proved). Model: same; the loop is the inductive relation `SlotRun`. Proof: induction on the run, existence by the distance to the boundary. Theorems in `Props/Slots.lean`.

**C13 — Cells tile the chip** (partial). Model: `Model/Dimensions`: parser actions and geometry. Proof: telescoping sums over columns; witnesses. Theorems in `Props/Dimensions.lean`. Violated: chips that are not a whole number of cells are accepted; cell centre wrong when there are exactly two columns.

**C14 — Cell indices are a bijection** (proved). Model: same, offsets on `uint32_t`. Proof: arithmetic of division and remainder. Theorems in `Props/Dimensions.lean`.

**C15 — Reading the temperature of a cell outside the grid is refused** (partial). Model: same. Proof: witness and partial. Theorems in `Props/Dimensions.lean`. Violated: only the flat index is checked.

**C16 — Stack elements own disjoint, contiguous layers bottom-up** (proved). Model: `Model/Stack`: parser of the stack section, `thermal_grid_fill`. Proof: induction on the list of elements. Theorems in `Props/Stack.lean`.

**C17 — Power of a die is injected into its source layer only** (proved). Model: same. Proof: lookup in the concatenation of the blocks. Theorems in `Props/Stack.lean`.

**C18 — Heat sinks attach to the outermost layers and never share a layer** (proved). Model: same. Proof: case analysis of the outer layers. Theorems in `Props/Stack.lean`.

**C19 — System matrix is a valid compressed-column matrix** (proved). Model: `Model/SystemMatrix`: column builders and arrays. Proof: per-column lemma, prefix sums. Theorems in `Props/SystemMatrix.lean`.

**C20 — The matrix never overruns its allocation** (partial). Model: same with `compute_number_of_connections`. Proof: counting sums; witnesses for the excess and for the wrap-around. Theorems in `Props/MatrixSize.lean`. The count equals the coefficients for 4RM/no channel and suffices for the others; violated: it is too large by two per cell of a layer for 2RM and pin fins, and it wraps on 32 bits for very large grids.

**C21 — Conduction is symmetric** (proved). Model: same. Proof: entry characterisation, symmetry of `par`. Theorems in `Props/SystemMatrix.lean`.

**C22 — Each transient solid step has exactly one solution** (proved). Model: same. Proof: strict diagonal dominance (Lemmas/Network). Theorems in `Props/SystemMatrix.lean`.

**C23 — Thermal equilibrium is preserved** (partial). Model: same with `Model/Emulate`. Proof: row sums; witness for one-row channels. Theorems in `Props/Equilibrium.lean`. Proved for stacks without coolant and for channels with more than one row of cells; violated for channels with a single row, where the matrix takes the outlet term only once.

**C24 — Energy is conserved at each step** (partial). Model: same. Proof: column sums. Theorems in `Props/Energy.lean`. Proved for stacks without coolant and for channels with more than one row of cells; violated for channels with a single row.

**C25 — Temperatures obey the maximum principle and are monotone in power** (proved). Model: same. Proof: M-matrix argument: minimum principle. Theorems in `Props/CoolantBound.lean`, `Props/Monotone.lean`, `Props/SteadyBounds.lean`. Transient steps and steady states of solid stacks; with flowing coolant neither holds: C25_coolant_violated exhibits a chip where any positive power cools the coolant at the inlet below every temperature present; stacks with a pluggable sink are excluded: their temperatures come from external code.

**C26 — A floorplan element's power is fully distributed** (partial). Model: `Model/Floorplan`: align_to_grid, floorplan_matrix fill/multiply. Proof: telescoping sums; witness. Theorems in `Props/Floorplan.lean`. Proved when the grid covers the chip and walls are equal; violated when the last wall is longer than the others.

**C27 — The cells assigned to a rectangle are those it overlaps** (partial). Model: same. Proof: characterisation of the two scans; witness. Theorems in `Props/Floorplan.lean`. Proved when the grid covers the chip and walls are equal; violated otherwise.

**C28 — Overlapping floorplan elements and repeated names are rejected** (partial). Model: same, parser actions. Proof: witnesses; partial for the location check. Theorems in `Props/Floorplan.lean`. Violated: the checks are commented out in the parser; only the location check remains.

**C29 — Layout overlap detection is exact up to the tolerance** (proved). Model: same. Proof: ordered field reasoning. Theorems in `Props/Floorplan.lean`.

**C30 — Element temperature statistics are right** (partial). Model: same, statistics loops. Proof: fold lemmas; witness. Theorems in `Props/Stats.lean`. Violated for the average of elements whose rectangles have different numbers of cells: it is the unweighted mean of the rectangle means.

**C31 — Coolant outlet statistics describe the coolant** (partial). Model: `Model/Outlet`. Proof: fold lemmas; witnesses. Theorems in `Props/Outlet.lean`. Maximum and minimum proved for every model but 4RM, and for 4RM unless the first wall is hotter/colder than all the coolant; violated otherwise; the average is wrong for every 4RM grid and the gradient is the maximum.

**C32 — Each inspection point is written at exactly its instants** (partial). Model: `Model/Output`: lists of points, emulator loop. Proof: induction on the run. Theorems in `Props/Output.lean`, `Props/OutputLost.lean`. Proved for every point and run; violated for the time of thermal and power maps, whose records carry none, and for files that cannot be opened during the run (later points of the same instant lose their records too); one trace must be shorter than 2^32 steps; the printed digits are not modelled.

**C33 — A temperature probe monitors the cell that contains it** (partial). Model: `Model/Dimensions`: align_tcell. Proof: characterisation of the scans; witnesses. Theorems in `Props/Probe.lean`. Violated: reported location is 0 in a last wall longer than the others; points of the chip not covered by the grid.

**C34 — Server answers every request as documented** (partial). Model: `Model/Server`: `main` of the server as relations, on top of `Net`, `Emulate`, `Output`, `Reply`. Proof: induction on the requests, simulation of a specification written in terms of request lists. Theorems in `Props/Server.lean`. Every session of the server (uniform grids): the replies are the specified ones, in request order, for every request list and every way the bytes are delivered; the server ends at an exit request, the end of the simulation, an error or a disconnection, and never gets stuck. Three deviations from include/types.h are proved: word 0 of an output reply is the time and not the number of points, a failing power insertion gets no reply, and a request truncated by a dying client is executed. Missing: non-uniform grids.

**C35 — Inserted powers reach the right floorplan elements** (proved). Model: same. Proof: induction on layers and elements. Theorems in `Props/Slots.lean`.

**C36 — Client decodes floorplan reports the server encodes** (proved). Model: `Model/Reply`: encoder of the server, decoder of the client. Proof: round trip by induction on reports. Theorems in `Props/Reply.lean`.

**C37 — Number of steps per slot is slot time divided by step time** (partial). Model: `Model/Solver`: scaling loop, also in binary64. Proof: arithmetic; witness computed with the rounding function. Theorems in `Props/Solver.lean`. Proved in exact arithmetic when the scaled times fit 32 bits, and for whole numbers whatever the rounding; violated in binary64 (step 0.07, slot 0.35) and when the scaled slot exceeds 32 bits.

**C38 — Ill-formed stacks are rejected** (partial). Model: `Model/Stack`. Proof: characterisation of acceptance; witness. Theorems in `Props/Stack.lean`. Violated for consecutive channels: the check looks at the first element of the list instead of the last one.

**C39 — Heat spreader is centred and covers the chip** (proved). Model: `Model/Dimensions`: heat spreader. Proof: arithmetic. Theorems in `Props/Probe.lean`.

**C40 — Changing the coolant flow rate equals rebuilding with it** (proved). Model: `Model/Emulate`: update_coolant_flow_rate. Proof: equality of states. Theorems in `Props/Flow.lean`. The coefficients of pin fin channels use the Darcy velocity, so their rebuilt matrix is the same one.

**C41 — Resetting restores the initial thermal state only** (proved). Model: same. Proof: equality of states. Theorems in `Props/Reset.lean`.

**C42 — Sources of a slot depend only on that slot's powers** (proved). Model: same. Proof: independence of the previous state. Theorems in `Props/Sources.lean`. The closed formula is for elements inside a grid that covers the chip (see C26); history independence is for every grid.

**C43 — Material lookup honours the layout** (partial). Model: `Model/ThermalGrid`: layer and material lookup. Proof: list search. Theorems in `Props/Conductance.lean`. Violated for grids with exactly two columns, where the cell centre is wrong (C13).

**C44 — Non-uniform grid assembly is symmetric, balanced and order independent** (partial). Model: `Model/NonUniform`: cells, connections found by parallel loops (every schedule), triplets, sorting, arrays. Proof: permutation invariance, sums over connections. Theorems in `Props/NonUniform.lean`, `Props/NonUniformEx.lean`. Non-uniform stacks of dies and layers, with a conventional top sink or a spreader, any schedule of the parallel loops. Exact arithmetic: the matrix does not depend on the schedule nor on the sorting algorithm, is symmetric, has the announced size and the stated row sums, and the step has one solution. With rounded additions the diagonal does depend on the schedule (C44_rounding_violated). Missing: stacks with channels; the term of a bottom sink (C45).

**C45 — Non-uniform bottom sink is balanced** (partial). Model: same with the source vector. Proof: witnesses and equilibrium without bottom sink. Theorems in `Props/NonUniformSink.lean`. Refuted: on a non-uniform grid the source vector contains the bottom sink (without its heat transfer coefficient) and the matrix does not, so for every stack with a bottom sink the ambient temperature is no equilibrium; with only a bottom sink the program reads a null pointer. Without a bottom sink the ambient temperature is an equilibrium.

**C46 — Steady state is the fixed point of the transient** (proved). Model: `Model/Emulate`. Proof: algebra of the step, convergence argument by monotonicity. Theorems in `Props/Steady.lean`. Stacks with a pluggable sink have no steady simulation (the code refuses it) and are excluded.

**C47 — Client stops exactly at the termination slot** (proved). Model: `Model/Client`: arguments, trace reader, main loop against an arbitrary server. Proof: induction on the loop; composition with the server model. Theorems in `Props/Client.lean`, `Props/ClientServer.lean`, `Props/Session.lean`. The client model (arguments, trace reader, main loop) against an arbitrary server, against any cooperating server, and composed with the server model of C34; a number of slots of 2^32 or more is truncated (finding).

**C48 — Thermal conductances are positive and combine in series** (partial). Model: `Model/ThermalGrid`: conductance tables. Proof: positivity, series formula. Theorems in `Props/Conductance.lean`, `Props/Coolant.lean`. Violated in outermost layers without a sink: the full height is used instead of half of it.

**C49 — Output-files transfer lists exactly the existing files** (proved). Model: `Model/Reply`. Proof: induction on the files. Theorems in `Props/Reply.lean`.

**C50 — Final power map shows the last simulated slot** (partial). Model: `Model/Output`. Proof: induction on the run; witness. Theorems in `Props/PowerMap.lean`. Violated in transient runs: the call that finds the end of the traces clears the source vector first; proved for steady runs; what the transient map shows instead is characterised.

**C51 — Accepted layouts are unambiguous** (proved). Model: `Model/Layout`. Proof: ordered field reasoning. Theorems in `Props/Floorplan.lean`.

**C53 — Non-uniform power distribution** (proved). Model: same, source vector. Proof: induction on layers and elements. Theorems in `Props/NonUniformSink.lean`, `Props/NonUniformSrc.lean`. Exact arithmetic, integer discretizations, stacks without channels whose layers all have cells.

**C54 — Non-uniform cells tile the chip** (partial). Model: same, cells. Proof: counting of the parts that contain a point. Theorems in `Props/NonUniformTile.lean`. Any stack of dies and layers: the cells fit the arrays, and a point lies in as many cells of a layer as there are rectangles that contain it, hence in exactly one when the first rectangles of the floorplan elements tile the chip. Refuted for elements with several rectangles: only the first one has cells, although the floorplan file is accepted.

**C52 — Non-uniform conductances follow the geometry** (partial). Model: `Model/NonUniform`. Proof: geometry of the Minkowski difference, then the sum over the list of connections has one term. Theorems in `Props/NonUniformContact.lean`. Every pair of cells of every non-uniform stack of dies and layers (borders equal or more than 0.001 apart): the coefficient is minus the conductance given by the geometry, and zero without contact. Refuted for neighbours of which one ends strictly inside the border of the other on both sides: the program takes too long a contact (twice the conductance in the example). Missing: pairs of spreader cells, channels (see C58), borders closer than the tolerance.

**C55 — Inspection points on non-uniform grids** (partial). Model: `Model/NuOutput`: indices recorded for the elements, probes, maps. Proof: position of the layer in the list of cells; counting. Theorems in `Props/NonUniformChannelTile.lean`, `Props/NonUniformOut.lean`. Stacks of dies and layers, elements with one rectangle, floorplans without overlaps; maps for every layer. Refuted for elements with several rectangles (cell 0 of the stack enters the statistics in place of the other rectangles; what is written instead is stated exactly, for any number of rectangles, by C55_element_written and C55_floorplan_written) and for probes outside every cell (cell 0 is reported). Probes also in stacks with channels (C55_probe_in_stack). Missing: coolant and 3D points, channels for the statistics.

**C56 — A non-uniform grid that asks for the uniform cells is the uniform simulation** (partial). Model: The two modes are modelled separately (`SystemMatrix`, `Emulate` and `NonUniform`).. Proof: Both matrices are computed in closed form from rows and columns (six neighbours on one side, contact regions on the other) and compared; the diagonal by the column sums; the sources by the share of each element in each cell.. Theorems in `Props/NonUniformBottom.lean`, `Props/NonUniformRegular.lean`, `Props/NonUniformSame.lean`, `Props/NonUniformSameSrc.lean`. Stacks of dies and layers with a conventional top sink: C56_matrices and C56_sources give the exact difference of the two modes, with or without a bottom sink. Without one: matrix, heat capacities, solutions and sources are equal up to the numbering of the cells, and a regular subdivision of a grid with equal cells yields the cells of the uniform grid. Refuted for every stack with a bottom sink: each diagonal of the lowest layer lacks the conductance to the ambient (C56_bottom_sink_violated), each of its cells gets too much heat from the ambient (C56_bottom_sources_violated), and both errors make the stack warmer than in uniform mode (C56_bottom_warmer). Missing: channels, the heat spreader, layouts with several materials.

**C57 — Coolant exchange follows the declared channel** (proved). Model: the channel cases of Model/ThermalGrid and Model/SystemMatrix, reached from the stack file through BuiltFrom. Proof: each neighbour coefficient is read off the column lists with `entry_of_ent`, positivity turns PARALLEL into a series; sums by `col_sum`/`row_sum`; absent couplings by `entry_mem`. Theorems in `Props/Coolant.lean`, `Props/WallHeat.lean`. Over an arbitrary ordered field, for every stack file accepted by the parser. The pin-fin correlations (C function pow) are parameters. The couplings with the layers below and above are stated for solid layers; consecutive channels (accepted by mistake, C38) are not covered by that part. Single-row channels are excluded from the row and column sums (see C23).

**C58 — Channels on non-uniform grids** (partial). Model: the channel cases of Model/NonUniform: cells, marks, contacts inside and across layers, conductances, stream and boundary terms, reached from the stack file through `FromStack`. Proof: which layers touch is computed from the record of the channel elements (`Facing`), which cells touch from their borders; each coefficient is then the series of two halves; sums of rows and columns by `colSum_base` and the antisymmetry of the stream. Theorems in `Props/NonUniformChannelLink.lean`, `Props/NonUniformChannelTile.lean`, `Props/NonUniformCoolant.lean`, `Props/NonUniformFilm.lean`, `Props/NonUniformFlaws.lean`, `Props/NonUniformSide.lean`. Every accepted stack with channels, over an arbitrary ordered field (borders of cells equal or more than 0.001 apart; columns that fill the chip where points and lateral contacts are concerned). Refuted: (1) the solid fraction of 2RM conducts along the channel with the length of the cell in place of its width; (2) a film coefficient of zero couples the wall under a 4RM channel directly to the coolant instead of insulating it; (3) if the columns do not fill the chip, points before the last column lie in no cell of the channel; (4) the outlet is found by an equality of rounded numbers, which fails in binary64 for 15 rows on a width of 1000: the outlet term is dropped. Missing: the exceptions of C52 for pairs of solid cells; channels directly over channels (accepted by mistake, C38).

**C59 — Sources, heat balance and equilibrium with channels on non-uniform grids** (partial). Model: the channel branch of update_source_vector, capacityNU, the matrix of C58. Proof: the loop over the layers keeps what it wrote (`srcLayer_spec`); sums over cells are regrouped by layers, elements of the stack, rows and columns; summing all the equations leaves the column sums of C58. Theorems in `Props/NonUniformInlet.lean`. Every accepted stack, with or without channels, over an arbitrary ordered field; the powers, the sinks and the coolant for transient and steady systems. The odd number of columns of 4RM channels, checked by the parser, is a hypothesis. The balance states the term of the bottom sink as the program computes it (in the sources only, see C45); equilibrium is therefore proved for stacks without a bottom sink. Missing: rounding.

**C60 — Simulation on non-uniform grids: slots, power values, inserted powers, heat** (partial). Model: Model/NuEmulate: build, update_source_vector with the state left by failures, insertion, reset, step, slot, steady state on non-uniform grids; solver and callback are parameters. Proof: an invariant (`Valid`) holds in every reachable state; each call is described by what it does to the queues (`popFront`, `pushFront`), the time and the grid; slots by induction on the distance to the boundary; the balance is C59 applied to the sources computed at the beginning of the slot. Theorems in `Props/NuEnergy.lean`, `Props/NuSlots.lean`. Every accepted stack on a non-uniform grid and every history of steps, insertions and resets; solver and callback arbitrary for the first eleven theorems, a correct solver and an ambient (or no pluggable) top sink for the balance. As on uniform grids (C08) a slot that cannot start may take values from some elements: the theorem says which. Equilibrium is proved without a bottom sink, whose term the program omits (C45). Changes of the coolant flow between slots are included (the stack is then the one with the current rate; inside a slot see C61). Missing: the balance with a pluggable sink, rounding.

**C61 — Changing the coolant flow rate on a non-uniform grid** (partial). Model: flowNU (Model/NuEmulate): update_coolant_flow_rate with the channel shared by the grids and the stack elements; update_channel_sources walks the vector in steps of nRows*nCols as the C code does. Proof: reading the stack with another rate commutes with building the grid (FromStack.flow), so reachability and its invariant include changes of the rate; exact positions of the writes by induction over the layers; comparison of the source vectors of two rates. Theorems in `Props/NuRate.lean`, `Props/NuRateEx.lean`. Matrix, capacities, state: proved for every history. The inlet terms are right only if the inlets are where a uniform grid has them (C61_inlets_right_partial); for other grids the code is wrong: stale inlets (C61_inlet_stale_violated), lost power and a write behind the end of the vector (C61_wrong_cells_violated), because update_channel_sources advances by rows*columns per layer.

**C62 — Transient steps on non-uniform grids with channels have exactly one solution** (proved). Model: the matrix of C58. Proof: energy argument: symmetric part of the matrix with non-positive off-diagonal sums (`pair_nonpos`), row plus column sums positive except on the surfaces of 2RM channels, which are tied to the wall between the channels. Theorems in `Props/NonUniformUnique.lean`, `Props/NuEnergy.lean`. Every accepted stack with or without channels, over an arbitrary ordered field; borders of cells equal or more than 0.001 apart. Second theorem: ambient top sink.

**C63 — A pluggable heat sink on a non-uniform grid exchanges heat with the cells of the spreader** (partial). Model: capsNU, sprOffset, plugged, pluggableNU (Model/NuEmulate): the callback is a parameter with its own state; the offset of the spreader is computed on 32 bits from the number of cells, as in the C code. Proof: the spreader layer is the last one of the list of layers; induction over the calls of a slot shows that only entries from the offset on change; the balance follows from C59 by turning the flows into a change of the old temperature. Theorems in `Props/NuPlug.lean`, `Props/NuPlugEx.lean`. Spreaders without borders: proved for every accepted stack, every callback and every history, for grids of less than 2^32 cells, a correct solver. Spreaders with borders are accepted by the program, and for them the property is false: C63_capacity_overflow_violated and C63_border_violated for every such stack, C63_lost_power_violated on a concrete one. Equilibrium without a bottom sink (see C45).

**C64 — Whole simulations agree between uniform and non-uniform mode when the grids are the same** (partial). Model: both simulators, `Model/Emulate` (uniform) and `Model/NuEmulate` (non-uniform). Proof: a relation `Twin` (same time, same traces, same temperatures cell by cell, invariants of both) is preserved by every call; for a step the two linear systems are permutations of each other (C56) and have one solution each, so correct complete solvers return the same temperatures. Theorems in `Props/NuRun.lean`. Every history, slot and steady state; stacks of dies and layers with a conventional top sink. Missing: channels, bottom sinks and pluggable sinks. The solvers are correct and solve every system with one solution.

**C65 — Input files are free-format text** (partial). Model: the flex rules of the three scanners as regular expressions with start conditions, flex's longest-match/first-rule/default-echo discipline, and atof on the decimal notation; identifiers, keywords and numbers are matched by a derivative matcher proved equal to the language of the expression. Proof: correctness of the matcher, then for each kind of token the longest match is that token (Implements), then induction over the written text; violations as theorems about every comment body, stray character and digit string. Theorems in `Props/Scanner.lean`. All token sequences and layouts, with the exception of block comments that contain two adjacent stars; for these the theorems say what is read instead (the rest of the file may vanish). Stray characters are skipped silently. Numbers are rationals: rounding of atof is not modelled.

**C66 — The grammar of the three input files** (proved). Model: Model/Grammar.lean: the abstract syntax of the three files and a recursive-descent parser with the decisions of the three bison grammars. That bison's tables decode its grammar is trusted.. Proof: Props/Grammar.lean gives the written form (`toks`) of each construct independently of the parser; `Reads` is soundness and completeness of a parser for a printer, composed construct by construct; the file theorems are equivalences.. Theorems in `Props/GrammarFiles.lean`, `Props/Writable.lean`. Token level: equivalences, all three files. The text theorems compose with C65 and inherit its exception (block comments that contain adjacent stars). The parser modelled is recursive descent; that the LALR(1) tables bison generates decode the grammar is trusted.

**C67 — Names, defaults and order of declarations in the input files** (proved). Model: Model/FrontEnd.lean: the actions of the three grammars as a function `describe` from documents to the description of the simulation (materials, sinks, channel, dimensions, elements, analysis, output points); floorplans through a `Reader`, which is `parseFloorplan` for the uniform grid; `load` starts from the texts of the files.. Proof: Props/FrontEnd.lean states the meaning of a document as a relation (`Means`), by membership of declarations, without tables or order, and proves it equivalent to `describe`; order, unused declarations and defaults follow from it, renaming by simulation of each action; `C67_text` composes with C65 and C66.. Theorems in `Props/FrontEnd.lean`, `Props/FrontEndOrder.lean`. Equivalence for every document and every set of files; texts as in C65 (no adjacent stars in block comments). The plug-in of a pluggable sink is not loaded in the model, undefined conversions in the dimensions section count as refusals. The list of all declared materials, which nothing reads after parsing, keeps the order of the file.

**C68 — The program from its input files to its output files** (proved). Model: Model/Program.lean: `Main`, the relation between the arguments of the command, the files that can be read and opened, and the exit status, what is written in the output files, and the last state; it composes the models of the scanners, the grammars, their actions, the grid, the matrix, the simulation and the output points.. Proof: Props/Sensible.lean states when the numbers of a document make sense and proves that the grid built from it meets what C20-C32, C41, C46 etc. need; Program.lean, ProgramHeat.lean, ProgramSteady.lean derive the statements about whole sessions in terms of the documents; ReaderMap.lean and ProgramAccept.lean show that such documents are accepted and run without solver errors; ProgramEx.lean runs documents with every cooling model from their text on.. Theorems in `Props/Program.lean`, `Props/ProgramAccept.lean`, `Props/ProgramHeat.lean`, `Props/ProgramPoints.lean`, `Props/ProgramSteady.lean`. Uniform grids, real arithmetic, 32-bit step counter not exceeded where stated. Uniqueness (C68_only_solution, C68_history, C68_steady_only) without a pluggable sink; with one, C68_heat_equation includes the flows of the plug-in. Headers and terminal output are not modelled; times are as in C37.

**C69 — The program on a non-uniform grid: which files run, and what is written when** (proved). Model: Model/ProgramNu.lean: `MainNU`, the relation between the arguments of the command, the files, and the exit status, the writes to the output files (in order, created or appended) and the last state, for descriptions with a non-uniform grid; the connections between cells are those of any schedule (`Runs`).. Proof: Props/ProgramNu.lean: sessions, failures, determinism up to the order of the connections, independence of the text. ProgramNuRun.lean: sensible documents give a grid that meets what C53-C63 need. ProgramNuOut.lean: induction over the loop. ProgramNuAccept.lean: such documents run. ProgramNuEx.lean: documents with every cooling model from their text on.. Theorems in `Props/ProgramNu.lean`, `Props/ProgramNuAccept.lean`, `Props/ProgramNuOut.lean`. Real arithmetic; names of elements with maps shorter than 39 characters and of 3D files shorter than 37 (longer ones overflow the buffers of the program), fewer than 10^9 steps for C69_runs, 32-bit step counter not exceeded elsewhere. Bodies of the headers are abstracted. Values of the records and of conductance_layer.txt: see C71; temperatures: see C70.

**C70 — On a non-uniform grid, what the files say is what the temperatures obey** (proved). Model: the program on a non-uniform grid from the files to the temperatures: Model/ProgramNu, Model/NuEmulate and the specification `GoodDivision`, `OnRaster` over the documents. Proof: the elements of the grid are traced back to the documents (`nElem_of`), which gives the hypotheses of C54-C63 (`StartedNU.good`, `C70_raster`); those theorems then apply along the run, whose slots and power values are counted by induction on the steps (`step_along`). Theorems in `Props/ProgramNuHeat.lean`, `Props/ProgramNuRaster.lean`. The whole program on a non-uniform grid, from the documents. The balance with a plug-in needs a spreader as large as the chip (false otherwise: C63), the equilibrium no bottom sink (whose term the program omits from the matrix: C45). The steady state assumes that the solver found a solution. Solver exact, arithmetic without rounding.

**C71 — The files written for a non-uniform grid hold the values of the cells the stack file asked for** (proved). Model: what the points of the documents write, over Model/ProgramNu; the specification (`PointValue`, `DocWrites`, `LayerLine`) speaks of the documents and of the cells of the grid only. Proof: `point_value` translates each point: the element it names is found by its name (`place_spec`), its layer is counted in the documents (`shown_layer`), and C54/C55 give the cells; `doc_all` and C69 then cover all instants of a run. Theorems in `Props/ProgramNuValues.lean`. Every value in every file, in terms of the documents, for the points of a non-uniform grid: Tcell where exactly one floorplan element has the point, Tflp and Tflpel where the elements do not overlap (otherwise C28), each further rectangle of an element counting cell 0 of the stack once more (C55), the maximum and the minimum of the coolant (the average and the gradient are wrong: C31). Divisions of at least one column and one row; real arithmetic.

**C72 — On a non-uniform grid the steady state exists, is unique and is the one the program finds** (proved). Model: the matrix of a stack without holes on a non-uniform grid (any model of the coolant), `emulate_steady` on every reachable state, and the program on documents. Proof: the symmetric part of the matrix is a network in which every cell conducts to a cell of a higher layer (`conducts_up`), and the last layer to the ambient: no vector is annihilated (`Net2.unique_of_grounded`); the documents meet the conditions (`no_holes`, `channels_apart`). Theorems in `Props/NuSteady.lean`, `Props/NuSteadyEx.lean`, `Props/ProgramNuSteady.lean`. Exact arithmetic; conventional heat sink on top, floorplans whose first rectangles leave no gaps, no channel directly on another, borders of cells equal or more than 0.001 apart, columns of the channels that fill the chip, positive exchange coefficients of the coolant, at least one power value per element. The solver is any function that returns only solutions and finds those that are unique. Refuted without the condition on gaps: a floorplan element under a gap of the next die that touches no other cell makes the steady state undetermined, and the stack is accepted (C72_gaps_violated).

**C73 — A floorplan file that the library writes can be read again** (partial). Model: `printf` of decimals (`%.nf`, `%.ne`, rounding to nearest even), the functions that print floorplans, the ring buffer included, and the materials at the beginning of a stack file; read again with the scanner and the parser of C65 and C66. Proof: what is printed is a `Written` text of tokens (the numbers are numerals whose value is the rounded one); C65 and C66 say what is read. Refusals: no document has `values ;`, or two numbers after `conductivity`. Theorems in `Props/Printer.lean`. Floorplan files: proved if every element has values left; refuted otherwise, for materials and discretizations, and for stack files as a whole (what follows the materials in a stack file is arbitrary in the theorem). Numbers are rationals, printf rounds them exactly; files that read as documents of the free format of C65.

**C74 — Bounds and monotonicity of temperatures on non-uniform grids** (proved). Model: the matrix and the vector of every step on a non-uniform grid without coolant, on reachable states, and the program on documents. Proof: off the diagonal the matrix is not positive and its column and row sums are the stored heat plus the exchange with the ambient, so its inverse is monotone; induction on the operations of a history. Two sets of documents that differ in powers and temperatures only give the same cells and the same matrix (`build_same`, `hotter_grid`). Theorems in `Props/NuCompare.lean`, `Props/NuMonotone.lean`, `Props/ProgramNuBounds.lean`. Exact arithmetic; no coolant; a conventional heat sink on top; for every order in which threads deliver the connections of the cells. The solver is any function that returns only solutions. The upper bound excludes a bottom sink: its heat is added but never removed (C45). The steady statements need floorplans without gaps (C72) and borders of cells equal or more than 0.001 apart. The two runs that are compared share the geometry, the materials and the coefficients of the sinks; powers, ambient temperatures and the initial temperature of the second are not lower.

**C75 — Hotter input files give hotter results; steady results stay on the right side of the ambients (uniform grid)** (proved). Model: Two sessions of the program model (Program.lean: files, parser, grid, loop), related by `Warmer`: equal documents except powers, ambients, initial temperature, outputs.. Proof: The grids differ in the ambients only (the grid does not depend on the floorplans: fillGrid_map/parseStack_map), the elements lie on the same cells, so C25_monotone and C25_steady_* apply; the sign of a steady solution comes from diagonal dominance plus a path to a sink.. Theorems in `Props/ProgramBounds.lean`. Two runs of the program on uniform grids without coolant, from the text of their files; the transient bounds of one run are C68_never_below and C68_never_above, non-uniform grids are C74; exact arithmetic, any correct solver.

**C76 — Every 3D map has a file of its own** (proved). Model: The log of the program on a non-uniform grid (ProgramNu.lean: `vtkName`, `pointNU`, `contentsNU`), in terms of the stack file (C71); the uniform program (Program.lean, Output.lean).. Proof: Decimal representations are injective and made of digits, so names with different stems not ending in a digit never meet; the last write to a file decides its contents, and no later write has that name.. Theorems in `Props/Maps3D.lean`. Under the conditions of the statement on the names (KeepsOff, NoDigit); the three refuted parts are the _violated theorems.

**C77 — Copies are independent and all memory is freed exactly once** (proved). Model: A heap of typed blocks; using or freeing a block that is not allocated is undefined. The `_init`, `_copy`, `_destroy`, `_clone` and `_free` functions of 18 types and of the list template, line by line (Memory.lean).. Proof: For each type a relation between objects, values and owned blocks; destroying frees exactly the owned blocks and duplicating allocates exactly the blocks of a new object of the same value; both compose over the fields of a structure; lists by induction over their nodes; histories by induction.. Theorems in `Props/Memory.lean`. All types and all histories. A copy of an object to itself is excluded (the model passes objects by value). Queues of powers: clones and destruction (copying into a built queue is C02). The functions of queues and matrices are modelled when the arrays are there as their constructors leave them. Two counterexamples in the code: dimensions with Cell_pointer set, PluggableHeatsinkInit of heat sinks.

**C78 — Building the thermal data either succeeds or leaves no trace, and destroying it gives everything back** (proved). Model: On the heap of C77: every pointer field of the thermal data, the grids and the matrix has a name; the allocations of each function with what is freed when one fails, the copies of the layers into the thermal grid, the checks of the sinks, the factorization, the destructors, in the order of the code (ThermalMemory.lean). The contents of numeric arrays are not modelled.. Proof: An invariant: the named fields point to different new blocks, the layers own the rest of what is new; a table of allocations keeps it if every failure frees a permutation of what was allocated before; the four ways a construction ends are followed to the destructor.. Theorems in `Props/ThermalMemory.lean`. The guarantees for success and for failing allocations are proved; the _violated theorems prove, for all stacks, that refused stacks and singular matrices lose memory and that thermal data cannot be destroyed after a failed construction, twice, or unbuilt. Allocation within layer_copy does not fail; SuperLU ends the program when it has no memory.

**C79 — The SystemC wrapper passes powers and temperatures between a SystemC simulation and the server** (proved). Model: Each public function of the wrapper as the message it sends and what it makes of the message it receives, with its ignored results, its uninitialised variables and the loops with their indices on 32 bits (Wrapper.lean); the server is the model of C34.. Proof: The reply of the server to the request of the wrapper comes from C34 (in every state a server reaches); the loops of the wrapper read a segment of its words, which is compared with the records of C32.. Theorems in `Props/Wrapper.lean`. The positive parts for every state a server reaches (Serving); the reply arrives whole (C79_delivered). The _violated theorems prove the refuted parts. Opening and closing the connection are not modelled; SystemC times are exact.

## 3. Trusted base

* Lean's kernel, version 4.33.0, and the statements of the definitions (model and specifications).
* The axioms `propext`, `Classical.choice`, `Quot.sound` of Lean. No axiom is added, no proof is left open, and no theorem rests on
  compiled evaluation. Section 7 lists the axioms of each theorem.
* Mathlib is used for lemmas; its proofs are checked by the same kernel.
* The faithfulness of the model to the cited lines: it was written by hand, nothing checks it mechanically. What was done against mistakes:
  line by line citation, concrete examples computed in the model, and seeded bugs (section 6).

## 4. What is modelled

| source | model |
|--------|-------|
| powers_queue.c | all: build, put, get, pop, empty, size, copy (`Model/PowersQueue`) |
| typed lists (macros of *_list.c / list template) | all operations (`Model/LinkedList`) |
| network_message.c, network_socket.c | insert, extract, build, send, receive; not: connect, accept, name lookup (`Model/Net`) |
| dimensions.c, and the parser rules for the dimensions | geometry, offsets, spreader, number of connections (`Model/Dimensions`, `SystemMatrix`) |
| layer.c, material_element.c, material.c, layer layouts | lookup and overlap checks (`Model/ThermalGrid`, `Layout`); not the text of the files |
| floorplan.c, floorplan_element.c, floorplan_matrix.c, ic_element.c, floorplan_file_parser.y (actions) | alignment, checks, power matrix, powers, statistics (`Model/Floorplan`) |
| stack_element.c, die.c, stack_description_parser.y (stack section) | names, order, offsets, acceptance (`Model/Stack`) |
| thermal_grid.c, channel.c, heat_sink.c | layer types, capacities, conductances, convective terms (`Model/ThermalGrid`) |
| system_matrix.c | all the column builders, the arrays, the non-uniform builder (`Model/SystemMatrix`, `NonUniform`) |
| power_grid.c | capacities, sinks, sources, inlets, insertion of powers (`Model/Emulate`, `NonUniform`) |
| thermal_data.c | build, reset, step, slot, steady, flow rate; cells and connections of non-uniform grids (`Model/Emulate`, `NonUniform`) |
| analysis.c, parser rule of the solver section | `Model/Emulate`, `Model/Solver` |
| output.c, inspection_point.c | lists, instants, what is printed, messages (`Model/Output`, `Server`, `NuOutput`); not the printed digits and headers |
| bin/3D-ICE-Emulator.c | the simulation loop (`Model/Output`) |
| bin/3D-ICE-Server.c | the request loop (`Model/Server`) |
| flex/*.l | all the rules, longest match, start conditions (`Model/Scanner`) |
| bison/*.y | grammars (`Model/Grammar`) and actions (`Model/FrontEnd`); not the messages |
| sources/*.c: `_init`, `_copy`, `_destroy`, `_clone`, `_free` | ownership of memory, 18 types, the list template and the stack description (`Model/Memory`); not those of analysis and network |
| sources/IceWrapper.cpp | all functions but opening and closing the connection (`Model/Wrapper`); SystemC times are exact numbers |
| sources/thermal_data.c, thermal_grid.c, power_grid.c, system_matrix.c: `_init`, `_build`, `_destroy` | ownership of memory with failing allocations (`Model/ThermalMemory`); SuperLU ends the program when it has no memory; working arrays of the non-uniform grids left out |
| bin/3D-ICE-Client.c | arguments, trace reader, loop (`Model/Client`) |

Not modelled: the tables that flex and bison generate (the model executes the rules and the grammar), rounding when numbers are read,
printing of numbers, memory exhaustion, SuperLU itself, the FMU/Python/C plugins of heat sinks, bin/ utilities that generate or convert
files, the text of 3D maps (`T3D`; their contents and file names are), the text of headers, time measurement.

## 5. Findings

Proved as `_violated` theorems (see section 2 for the theorem of each):

* a queue built with capacity 0 divides by zero / writes outside (C02); extraction past the end of a message delivers stale words (C05);
  messages of 2^30 words or more are sent truncated (C06); the step counter wraps after 2^32 steps (C08);
* the call that reports the end of the traces consumes values of the longer ones (C10) and clears the power map (C50);
* chips that are no whole number of cells are accepted, with effects on power and cells (C13, C26, C27); the cell centre is wrong for exactly two
  columns (C13, C43); temperatures outside the grid are returned when the flat index is inside (C15);
* the announced number of coefficients is too large for 2RM and pin fins and wraps for large grids (C20);
* with flowing coolant, heating a chip cools the coolant at the inlet below every temperature present, because the advection terms are central differences (C25);
* channels with one row of cells neither keep equilibrium nor conserve energy (C23, C24);
* overlapping elements and repeated names are accepted (C28), consecutive channels too (C38);
* averages of elements with several rectangles are unweighted (C30); the average of 4RM outlets is wrong, the gradient is the
  maximum (C31); maps carry no time (C32); the location reported for a probe in the last wall is 0 (C33);
* three deviations of the server from its documentation (C34); slot lengths wrong by rounding or overflow (C37);
* outermost layers without a sink use the full height (C48);
* non-uniform grids: rounding makes the diagonal depend on the schedule (C44); the bottom sink is in the sources but not in the matrix, a stack with only
  a bottom sink dereferences a null pointer (C45); nested neighbours get too long a contact (C52); elements with several
  rectangles get cells only for the first one (C54), and cell 0 enters their statistics (C55); a probe outside all cells reads cell 0 (C55); channels:
  wrong side lengths of virtual walls, division by a zero film, gaps left of the last column, and an outlet test that rounding defeats (C58); a change of the coolant flow in a slot updates wrong cells and
  writes behind the end of the source vector (C61); a spreader larger than the chip makes the capacity array overflow and the callback
  read and overwrite cells of the stack (C63); a floorplan element that touches no other cell leaves the steady state undetermined (C72);
  3D maps per step and per slot with the same name overwrite each other, names that begin with a dot are cut to a number, and on uniform grids 3D maps
  are accepted but never written (C76);
  a stack that is refused by `thermal_grid_fill` (two sinks on one layer, pluggable sink with 4RM channels) loses the arrays of the thermal grid, a singular matrix
  loses its permuted form, and thermal data whose construction failed, that was never built or that was destroyed once cannot be destroyed: pointers stay dangling or unassigned (C78);
  the SystemC wrapper shifts every map by one cell, returns the length of a file name as the temperature of a floorplan, reads the time into the lower half of a `double`, checks it with a condition that is never
  true, and reports powers as accepted when the server is gone (C79);
  copies of the dimensions of a built non-uniform grid share the array of cells, which is freed twice, and clones of heat sinks have an indeterminate
  initialisation function (C77);
  every stack file the library writes is refused by its own parser, and a floorplan file as soon as one element has no power values left (C73); a file that
  cannot be opened during the simulation silently loses the records of all later points of the same instant (C32);
* block comments ending in `**/` are not closed and hide the rest of the file; characters that start no token are skipped, so `.5` in a
  floorplan is 5 (C65);
* a solver failure is not reported by the exit status of the emulator; in a steady run the heat flows are then written as temperatures (C68).

Accepted by the parser although the text suggests otherwise (visible in `Means`, C67): heights, conductivities, discretizations that are not
positive; a number of cores between 0 and 1, which becomes 0; a power map of an element that is no die.

Seen while reading, not in the model: discretizations are `double`s (2.5 × 2.5 gives 4 cells but the power is split in 6);
layer layouts are looked up at cell (0,0) only on
non-uniform grids; `*height_tmp` is read one past the heights for the spreader layer (thermal_data.c:694); `print_thermal_map_3D` cuts
the file name at the first dot and uses 50-byte buffers; `error_message[100]` is filled by `sprintf` with identifiers of any length;
after a failed `fill_layout` or `fill_floorplan` the actions use the description they have just destroyed; `optional_layout` keeps a pointer into
the value stack of the parser; an unknown material of a floorplan element only prints a message; the check for an even number of columns
can never fail; with a steady-state analysis the plug-in of the sink is never initialized; a number of slots of 2^32 or more given to the client is truncated; the lengths
documented for SEND_OUTPUT and PRINT_OUTPUT are wrong; a failing solver leaves the right-hand side in the temperatures.

## 6. Seeded bugs

`seeded/LOG.jsonl` records the edits of the model tried in a scratch copy, what they break, and what failed. A theorem that survived an edit
that makes its claim false was tightened; the log says so.

## 7. Axioms of each theorem of MANIFEST.json

Obtained with `#print axioms` on the built project. “std” stands for `propext, Classical.choice, Quot.sound`.

* C01 `Verif.PowersQueue.C01_queue_is_fifo`: std
* C01 `Verif.PowersQueue.C01_outputs_are_the_inputs_in_order`: std
* C02 `Verif.PowersQueue.C02_get_empty`: std
* C02 `Verif.PowersQueue.C02_put_unbuilt`: propext
* C02 `Verif.PowersQueue.C02_copy_same_values`: std
* C02 `Verif.PowersQueue.C02_reachable_inv`: std
* C02 `Verif.PowersQueue.C02_capacity_zero_violated`: std
* C03 `Verif.DList.C03_lists_are_sequences`: std
* C03 `Verif.DList.C03_self_merge_violated`: none
* C04 `Verif.Net.C04_words_read_back`: propext, Quot.sound
* C05 `Verif.Net.C05_extract_in_memory_partial`: propext, Quot.sound
* C05 `Verif.Net.C05_extract_past_end_violated`: propext, Quot.sound
* C06 `Verif.Net.C06_send`: std
* C06 `Verif.Net.C06_receive`: std
* C06 `Verif.Net.C06_end_to_end`: std
* C06 `Verif.Net.C06_conversation`: std
* C06 `Verif.Net.C06_truncated_fails`: std
* C06 `Verif.Net.C06_huge_message_violated`: std
* C07 `Verif.Net.C07_bytes_round_trip`: propext, Quot.sound
* C07 `Verif.Net.C07_insertions_succeed`: propext, Quot.sound
* C08 `Verif.Emu.C08_time_counts_steps`: std
* C08 `Verif.Emu.C08_slot_done_iff`: std
* C08 `Verif.Emu.C08_wrap_violated`: std
* C09 `Verif.Emu.C09_one_value_per_slot`: std
* C09 `Verif.Emu.C09_ends_with_shortest_trace`: std
* C09 `Verif.Emu.C42_sources_kept_inside_slot`: std
* C10 `Verif.Emu.C10_what_is_lost`: std
* C10 `Verif.Emu.C10_equal_traces_partial`: std
* C10 `Verif.Emu.C10_lost_value_violated`: std
* C11 `Verif.Emu.C11_wrong_config`: propext, Quot.sound
* C11 `Verif.Emu.C11_slot_terminates`: std
* C12 `Verif.Emu.C12_slot_ends_at_boundary`: std
* C13 `Verif.Dim.C13_columns_consecutive`: std
* C13 `Verif.Dim.C13_rows_consecutive`: propext, Quot.sound
* C13 `Verif.Dim.C13_point_in_one_cell`: std
* C13 `Verif.Dim.C13_centers`: std
* C13 `Verif.Dim.C13_lengths_add_up_4rm`: std
* C13 `Verif.Dim.C13_lengths_add_up_partial`: std
* C13 `Verif.Dim.C13_two_columns_center_violated`: std
* C13 `Verif.Dim.C13_uncovered_chip_violated`: std
* C14 `Verif.Dim.C14_cells_bijection`: std
* C14 `Verif.Dim.C14_spreader_follows`: std
* C15 `Verif.Dim.C15_inside_grid_partial`: std
* C15 `Verif.Dim.C15_outside_grid_violated`: std
* C16 `Verif.Stk.C16_layers_match_file`: std
* C16 `Verif.Stk.C16_offsets_contiguous`: std
* C16 `Verif.Stk.C16_every_layer_has_one_owner`: std
* C17 `Verif.Stk.C17_source_layer_is_the_die_source`: std
* C17 `Verif.Stk.C17_floorplans_only_in_source_layers`: std
* C18 `Verif.Stk.C18_refused_iff`: std
* C18 `Verif.Stk.C18_sinks_change_only_outermost_layers`: std
* C19 `Verif.SM.C19_valid_compressed_columns`: std
* C20 `Verif.SM.C20_allocation_suffices_partial`: std
* C20 `Verif.SM.C20_count_differs_2rm_violated`: std
* C20 `Verif.SM.C20_overflow_violated`: std
* C21 `Verif.SM.C21_conduction_is_symmetric`: std
* C21 `Verif.SM.C21_asymmetry_only_along_coolant`: std
* C21 `Verif.SM.C21_coolant_part_is_antisymmetric`: std
* C22 `Verif.SM.C22_solid_step_dominant_unique`: std
* C22 `Verif.SM.C22_coolant_step_unique`: std
* C23 `Verif.Emu.C23_equilibrium_preserved_partial`: std
* C23 `Verif.Emu.C23_steady_partial`: std
* C23 `Verif.Emu.C23_single_row_violated`: std
* C24 `Verif.Emu.C24_energy_balance_partial`: std
* C24 `Verif.Emu.C24_single_row_violated`: std
* C25 `Verif.Emu.C25_never_below_minimum`: std
* C25 `Verif.Emu.C25_never_above_maximum`: std
* C25 `Verif.Emu.C25_monotone`: std
* C25 `Verif.Emu.C25_steady_never_below`: std
* C25 `Verif.Emu.C25_steady_never_above`: std
* C25 `Verif.Emu.C25_steady_monotone`: std
* C25 `Verif.Emu.C25_coolant_violated`: std
* C26 `Verif.Flp.C26_power_fully_distributed_partial`: std
* C26 `Verif.Flp.C26_coefficients_add_up_to_one_partial`: std
* C26 `Verif.Flp.C26_last_wall_violated`: std
* C27 `Verif.Flp.C27_cells_are_those_overlapped_partial`: std
* C27 `Verif.Flp.C27_last_wall_violated`: std
* C27 `Verif.Flp.C27_uncovered_chip_violated`: std
* C28 `Verif.Flp.C28_names_and_overlaps_unchecked_violated`: std
* C28 `Verif.Flp.C28_same_element_twice_violated`: std
* C28 `Verif.Flp.C28_accepted_inside_chip_partial`: std
* C29 `Verif.Flp.C29_symmetric`: propext, Quot.sound
* C29 `Verif.Flp.C29_no_false_report`: std
* C29 `Verif.Flp.C29_reports_overlaps_beyond_tolerance`: std
* C30 `Verif.Flp.C30_maximum`: std
* C30 `Verif.Flp.C30_minimum`: std
* C30 `Verif.Flp.C30_gradient`: std
* C30 `Verif.Flp.C30_average_between`: std
* C30 `Verif.Flp.C30_average_partial`: std
* C30 `Verif.Flp.C30_average_same_size_partial`: std
* C30 `Verif.Flp.C30_average_violated`: std
* C31 `Verif.Outlet.C31_maximum_partial`: std
* C31 `Verif.Outlet.C31_minimum_partial`: std
* C31 `Verif.Outlet.C31_maximum_of_wall_violated`: std
* C31 `Verif.Outlet.C31_minimum_of_wall_violated`: std
* C31 `Verif.Outlet.C31_average_violated`: std
* C31 `Verif.Outlet.C31_gradient_violated`: std
* C32 `Verif.Out.C32_what_is_written`: std
* C32 `Verif.Out.C32_run_length`: std
* C32 `Verif.Out.C32_records_of_a_point`: std
* C32 `Verif.Out.C32_what_a_record_shows`: std
* C32 `Verif.Out.C32_maps_carry_no_time_violated`: propext, Quot.sound
* C32 `Verif.Out.C32_simulation_ends`: std
* C32 `Verif.Out.C32_steady`: std
* C32 `Verif.Out.C32_unopenable_violated`: std
* C33 `Verif.Dim.C33_probe_monitors_containing_cell`: std
* C33 `Verif.Dim.C33_reported_location`: std
* C33 `Verif.Dim.C33_last_wall_location_violated`: std
* C33 `Verif.Dim.C33_uncovered_point_violated`: std
* C34 `Verif.Srv.C34_answers_in_order_partial`: std
* C34 `Verif.Srv.C34_never_stuck`: std
* C34 `Verif.Srv.C34_output_word_zero_violated`: std
* C34 `Verif.Srv.C34_insert_failure_violated`: std
* C34 `Verif.Srv.C34_truncated_request_executed_violated`: std
* C35 `Verif.Emu.C35_element_order`: std
* C35 `Verif.Emu.C35_inserted_in_order`: std
* C36 `Verif.Net.C36_client_decodes_server_reports`: std
* C36 `Verif.Net.C36_over_the_socket`: std
* C37 `Verif.Solver.C37_slot_length_partial`: std
* C37 `Verif.Solver.C37_never_zero`: std
* C37 `Verif.Solver.C37_whole_numbers_partial`: std
* C37 `Verif.Solver.C37_many_decimals_violated`: std
* C37 `Verif.Solver.C37_rounding_violated`: std
* C38 `Verif.Stk.C38_rejects_ill_formed_partial`: std
* C38 `Verif.Stk.C38_consecutive_channels_violated`: std
* C39 `Verif.Dim.C39_accepted_iff_not_smaller`: std
* C39 `Verif.Dim.C39_spreader_is_centred`: std
* C39 `Verif.Dim.C39_spreader_maps_back`: std
* C40 `Verif.Emu.C40_units_round_trip`: std
* C40 `Verif.Emu.C40_matrix_as_rebuilt`: std
* C40 `Verif.Emu.C40_rest_untouched`: propext, Quot.sound
* C40 `Verif.Emu.C40_sources_after_change`: std
* C40 `Verif.Emu.C40_sources_as_rebuilt`: std
* C41 `Verif.Emu.C41_reset_only_temperatures`: propext, Quot.sound
* C41 `Verif.Emu.C41_trajectory_after_reset`: std
* C41 `Verif.Emu.C41_reset_as_fresh`: std
* C42 `Verif.Emu.C42_sources_of_the_slot`: std
* C42 `Verif.Emu.C42_history_independent`: std
* C42 `Verif.Emu.C42_sources_kept_inside_slot`: std
* C43 `Verif.SM.C43_material_of_cell_partial`: std
* C43 `Verif.SM.C43_two_columns_violated`: std
* C44 `Verif.NU.C44_schedule_independent`: std
* C44 `Verif.NU.C44_any_sort`: std
* C44 `Verif.NU.C44_offdiagonal_any_rounding`: std
* C44 `Verif.NU.C44_structure`: std
* C44 `Verif.NU.C44_symmetric`: std
* C44 `Verif.NU.C44_row_sums`: std
* C44 `Verif.NU.C44_dominant_unique`: std
* C44 `Verif.NU.C44_rounding_violated`: std
* C45 `Verif.NU.C45_violated`: std
* C45 `Verif.NU.C45_without_bottom_partial`: std
* C45 `Verif.NU.C45_bottom_only_violated`: std
* C46 `Verif.Emu.C46_fixed_point`: std
* C46 `Verif.Emu.C46_kept_during_slot`: std
* C46 `Verif.Emu.C46_steady_result`: std
* C46 `Verif.Emu.C46_steady_unique`: std
* C46 `Verif.Emu.C46_sink_suffices`: std
* C46 `Verif.Emu.C46_independent_of_history`: std
* C46 `Verif.Emu.C46_transient_stops_at_steady_result`: std
* C47 `Verif.Cli.C47_stops_at_termination_slot`: std
* C47 `Verif.Cli.C47_simulates_until_termination`: std
* C47 `Verif.Cli.C47_terminates`: std
* C47 `Verif.Cli.C47_client_and_server`: std
* C47 `Verif.Cli.C47_arguments`: std
* C47 `Verif.Cli.C47_large_number_violated`: std
* C48 `Verif.SM.C48_capacity`: std
* C48 `Verif.SM.C48_lateral_series`: std
* C48 `Verif.SM.C48_vertical_series_partial`: std
* C48 `Verif.SM.C48_outermost_layer_violated`: std
* C48 `Verif.SM.C48_sink_series`: std
* C48 `Verif.SM.C48_spreader_series`: std
* C49 `Verif.Net.C49_output_files_reply`: propext, Quot.sound
* C49 `Verif.Net.C49_succeeds_up_to_1024`: propext, Quot.sound
* C50 `Verif.Out.C50_after_the_end`: std
* C50 `Verif.Out.C50_steady_partial`: std
* C50 `Verif.Out.C50_last_slot_violated`: std
* C51 `Verif.Flp.C51_accepted_layouts_are_unambiguous`: std
* C53 `Verif.NU.C53_power_of_each_cell`: std
* C53 `Verif.NU.C53_one_value_each`: std
* C53 `Verif.NU.C53_total_power`: std
* C54 `Verif.NU.C54_cells_fit_arrays`: std
* C54 `Verif.NU.C54_rectangles_divided`: std
* C54 `Verif.NU.C54_one_cell_per_point_partial`: std
* C54 `Verif.NU.C54_second_rectangle_violated`: std
* C52 `Verif.NU.C52_conductances_partial`: std
* C52 `Verif.NU.C52_nested_violated`: std
* C52 `Verif.NU.C52_double_conductance_violated`: std
* C55 `Verif.NU.C55_element_written`: std
* C55 `Verif.NU.C55_floorplan_written`: std
* C55 `Verif.NU.C55_element_statistics_partial`: std
* C55 `Verif.NU.C55_floorplan_statistics_partial`: std
* C55 `Verif.NU.C55_probe_partial`: std
* C55 `Verif.NU.C55_probe_in_stack_partial`: std
* C55 `Verif.NU.C55_probe_in_stack`: std
* C55 `Verif.NU.C55_maps`: std
* C55 `Verif.NU.C55_several_rectangles_violated`: std
* C55 `Verif.NU.C55_probe_without_cell_violated`: std
* C56 `Verif.NU.C56_matrices`: std
* C56 `Verif.NU.C56_sources`: std
* C56 `Verif.NU.C56_same_matrix_partial`: std
* C56 `Verif.NU.C56_same_sources_partial`: std
* C56 `Verif.NU.C56_same_solutions_partial`: std
* C56 `Verif.NU.C56_regular_subdivision`: std
* C56 `Verif.NU.C56_bottom_sink_violated`: std
* C56 `Verif.NU.C56_bottom_sources_violated`: std
* C56 `Verif.NU.C56_bottom_warmer`: std
* C57 `Verif.SM.C57_stream`: std
* C57 `Verif.SM.C57_film_4rm`: std
* C57 `Verif.SM.C57_wall_4rm`: std
* C57 `Verif.SM.C57_film_2rm`: std
* C57 `Verif.SM.C57_walls_2rm`: std
* C57 `Verif.SM.C57_stored_in_walls`: std
* C58 `Verif.NU.C58_cells`: std
* C58 `Verif.NU.C58_one_cell_per_point`: std
* C58 `Verif.NU.C58_stream`: std
* C58 `Verif.NU.C58_solid`: std
* C58 `Verif.NU.C58_walls`: std
* C58 `Verif.NU.C58_solid_pairs_partial`: std
* C58 `Verif.NU.C58_below`: std
* C58 `Verif.NU.C58_above`: std
* C58 `Verif.NU.C58_inside_4rm`: std
* C58 `Verif.NU.C58_inside_2rm`: std
* C58 `Verif.NU.C58_inside_layer_2rm`: std
* C58 `Verif.NU.C58_virtual_wall_violated`: std
* C58 `Verif.NU.C58_zero_film_violated`: std
* C58 `Verif.NU.C58_gap_violated`: std
* C58 `Verif.NU.C58_outlet_rounding_violated`: std
* C59 `Verif.NU.C59_sources`: std
* C59 `Verif.NU.C59_total_sources`: std
* C59 `Verif.NU.C59_capacities`: std
* C59 `Verif.NU.C59_heat_balance`: std
* C59 `Verif.NU.C59_equilibrium_partial`: std
* C60 `Verif.NU.C60_wrong_config`: propext, Quot.sound
* C60 `Verif.NU.C60_slot_terminates`: std
* C60 `Verif.NU.C60_slot_ends_at_boundary`: std
* C60 `Verif.NU.C60_one_value_per_slot`: std
* C60 `Verif.NU.C60_ends_with_shortest_trace`: std
* C60 `Verif.NU.C60_what_is_lost`: std
* C60 `Verif.NU.C60_equal_traces_partial`: std
* C60 `Verif.NU.C60_inserted_in_order`: std
* C60 `Verif.NU.C60_element_order`: std
* C60 `Verif.NU.C60_schedule_independent`: std
* C60 `Verif.NU.C60_schedule_builds`: std
* C60 `Verif.NU.C60_heat_balance`: std
* C60 `Verif.NU.C60_equilibrium_partial`: std
* C60 `Verif.NU.C60_steady`: std
* C61 `Verif.NU.C61_matrix_as_rebuilt`: std
* C61 `Verif.NU.C61_rest_untouched`: propext, Quot.sound
* C61 `Verif.NU.C61_written`: std
* C61 `Verif.NU.C61_inlets_right_partial`: std
* C61 `Verif.NU.C61_next_slot`: std
* C61 `Verif.NU.C61_inlet_stale_violated`: std
* C61 `Verif.NU.C61_wrong_cells_violated`: std
* C62 `Verif.NU.C62_step_unique`: std
* C62 `Verif.NU.C62_steps_succeed`: std
* C63 `Verif.NU.C63_spreader_cells`: std
* C63 `Verif.NU.C63_exchange`: std
* C63 `Verif.NU.C63_heat_balance`: std
* C63 `Verif.NU.C63_steps_succeed`: std
* C63 `Verif.NU.C63_equilibrium_partial`: std
* C63 `Verif.NU.C63_capacity_overflow_violated`: std
* C63 `Verif.NU.C63_border_violated`: std
* C63 `Verif.NU.C63_lost_power_violated`: std
* C64 `Verif.NU.C64_same_runs_partial`: std
* C64 `Verif.NU.C64_same_slots_partial`: std
* C64 `Verif.NU.C64_same_steady_partial`: std
* C65 `Verif.Scan.C65_free_format_partial`: std
* C65 `Verif.Scan.C65_unambiguous`: std
* C65 `Verif.Scan.C65_comment_violated`: std
* C65 `Verif.Scan.C65_hidden_violated`: std
* C65 `Verif.Scan.C65_stray_violated`: std
* C65 `Verif.Scan.C65_point_violated`: std
* C66 `Verif.Gram.C66_stack`: std
* C66 `Verif.Gram.C66_floorplan`: std
* C66 `Verif.Gram.C66_layout`: std
* C66 `Verif.Gram.C66_unambiguous`: std
* C66 `Verif.Gram.C66_text_partial`: std
* C66 `Verif.Gram.C66_flp_text_partial`: std
* C66 `Verif.Gram.C66_layout_text_partial`: std
* C66 `Verif.Gram.C66_every_document`: std
* C66 `Verif.Gram.C66_every_floorplan`: std
* C66 `Verif.Gram.C66_every_layout`: std
* C67 `Verif.FE.C67_meaning`: std
* C67 `Verif.FE.C67_declarations`: std
* C67 `Verif.FE.C67_order`: std
* C67 `Verif.FE.C67_shorthand`: std
* C67 `Verif.FE.C67_names`: std
* C67 `Verif.FE.C67_text`: std
* C68 `Verif.Prog.C68_session`: std
* C68 `Verif.Prog.C68_failure`: std
* C68 `Verif.Prog.C68_one_outcome`: std
* C68 `Verif.Prog.C68_text`: std
* C68 `Verif.Prog.C68_accepted`: std
* C68 `Verif.Prog.C68_runs`: std
* C68 `Verif.Prog.C68_points`: std
* C68 `Verif.Prog.C68_always_ends`: std
* C68 `Verif.Prog.C68_transient_outputs`: std
* C68 `Verif.Prog.C68_run_length`: std
* C68 `Verif.Prog.C68_whole_run`: std
* C68 `Verif.Prog.C68_initial`: std
* C68 `Verif.Prog.C68_heat_equation`: std
* C68 `Verif.Prog.C68_only_solution`: std
* C68 `Verif.Prog.C68_history`: std
* C68 `Verif.Prog.C68_energy_balance`: std
* C68 `Verif.Prog.C68_never_below`: std
* C68 `Verif.Prog.C68_never_above`: std
* C68 `Verif.Prog.C68_equilibrium`: std
* C68 `Verif.Prog.C68_steady_outputs`: std
* C68 `Verif.Prog.C68_steady_state`: std
* C68 `Verif.Prog.C68_steady_only`: std
* C68 `Verif.Prog.C68_steady_succeeds`: std
* C68 `Verif.Prog.C68_solver_error_unreported_violated`: std
* C69 `Verif.Prog.C69_session`: std
* C69 `Verif.Prog.C69_failure`: std
* C69 `Verif.Prog.C69_one_outcome`: std
* C69 `Verif.Prog.C69_text`: std
* C69 `Verif.Prog.C69_same_input`: std
* C69 `Verif.Prog.C69_one_mode`: std
* C69 `Verif.Prog.C69_runs`: std
* C69 `Verif.Prog.C69_transient_outputs`: std
* C69 `Verif.Prog.C69_run_length`: std
* C69 `Verif.Prog.C69_steady_outputs`: std
* C70 `Verif.Prog.C70_steps_succeed`: std
* C70 `Verif.Prog.C70_whole_run`: std
* C70 `Verif.Prog.C70_heat_balance`: std
* C70 `Verif.Prog.C70_heat_balance_plug`: std
* C70 `Verif.Prog.C70_steady`: std
* C70 `Verif.Prog.C70_equilibrium`: std
* C70 `Verif.Prog.C70_capacities`: std
* C70 `Verif.Prog.C70_raster`: std
* C71 `Verif.Prog.C71_transient`: std
* C71 `Verif.Prog.C71_steady`: std
* C71 `Verif.Prog.C71_report`: std
* C71 `Verif.Prog.C71_appended`: propext
* C71 `Verif.Prog.C71_replaced`: propext, Quot.sound
* C71 `Verif.Prog.C71_openable`: std
* C72 `Verif.NU.C72_steady_unique`: std
* C72 `Verif.NU.C72_steady_succeeds`: std
* C72 `Verif.NU.C72_steady_deterministic`: std
* C72 `Verif.NU.C72_gaps_violated`: std
* C72 `Verif.Prog.C72_program_steady`: std
* C72 `Verif.Prog.C72_program_unique`: std
* C73 `Verif.Print.C73_floorplan`: std
* C73 `Verif.Print.C73_round_trip`: std
* C73 `Verif.Print.C73_no_values_violated`: std
* C73 `Verif.Print.C73_division_lost_violated`: std
* C73 `Verif.Print.C73_stack_violated`: std
* C74 `Verif.NU.C74_never_below`: std
* C74 `Verif.NU.C74_never_above`: std
* C74 `Verif.NU.C74_monotone`: std
* C74 `Verif.NU.C74_steady_never_below`: std
* C74 `Verif.NU.C74_steady_monotone`: std
* C74 `Verif.Prog.C74_program_never_below`: std
* C74 `Verif.Prog.C74_program_never_above`: std
* C74 `Verif.Prog.C74_program_steady_never_below`: std
* C74 `Verif.Prog.C74_program_monotone`: std
* C74 `Verif.Prog.C74_program_steady_monotone`: std
* C75 `Verif.Prog.C75_monotone`: std
* C75 `Verif.Prog.C75_steady_never_below`: std
* C75 `Verif.Prog.C75_steady_never_above`: std
* C75 `Verif.Prog.C75_steady_monotone`: std
* C76 `Verif.Prog.C76_names`: std
* C76 `Verif.Prog.C76_step`: std
* C76 `Verif.Prog.C76_slot`: std
* C76 `Verif.Prog.C76_end`: std
* C76 `Verif.Prog.C76_same_name_violated`: std
* C76 `Verif.Prog.C76_relative_violated`: std
* C76 `Verif.Prog.C76_relative_lost_violated`: std
* C76 `Verif.Prog.C76_uniform_violated`: std
* C77 `Verif.Own.C77_histories`: std
* C77 `Verif.Own.C77_lists`: std
* C77 `Verif.Own.C77_independent`: std
* C77 `Verif.Own.C77_nothing_left`: std
* C77 `Verif.Own.C77_clones`: std
* C77 `Verif.Own.C77_stack_destroyed`: std
* C77 `Verif.Own.C77_dimensions_violated`: std
* C77 `Verif.Own.C77_heat_sink_violated`: std
* C78 `Verif.Own.C78_build_and_destroy`: std
* C78 `Verif.Own.C78_no_memory`: std
* C78 `Verif.Own.C78_refused_violated`: std
* C78 `Verif.Own.C78_singular_violated`: std
* C78 `Verif.Own.C78_after_failure_violated`: std
* C78 `Verif.Own.C78_destroy_twice_violated`: std
* C78 `Verif.Own.C78_unbuilt_violated`: std
* C79 `Verif.Wrap.C79_delivered`: std
* C79 `Verif.Wrap.C79_count`: std
* C79 `Verif.Wrap.C79_powers`: std
* C79 `Verif.Wrap.C79_wrong_number`: propext
* C79 `Verif.Wrap.C79_simulate`: std
* C79 `Verif.Wrap.C79_temperatures`: std
* C79 `Verif.Wrap.C79_map_violated`: std
* C79 `Verif.Wrap.C79_floorplan_violated`: std
* C79 `Verif.Wrap.C79_time_violated`: std
* C79 `Verif.Wrap.C79_lost_connection_violated`: std
