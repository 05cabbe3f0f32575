{"id": "C01", "title": "Hex neighbour step is undone by the flipped direction", "statement": "For every grid position and each of the six edge directions: if CellDir::offs_pos leads to a neighbour, then stepping from that neighbour in the flipped direction leads back to the start, flipping twice gives the same direction, and exactly one of the direction and its flip is an output direction (so an output edge always faces an input edge of the neighbour).", "quantifier": "every position (x, y) on an unbounded grid (both column parities), every edge direction", "why_tests_cant": "the offsets depend on the column parity and on underflow at the border; tests only sample a few coordinates", "anchors": ["src/cell_dir.rs: CellDir::flip, CellDir::as_offs, CellDir::offs_pos, CellDir::is_output, CellDir::is_input"]}
{"id": "C02", "title": "CellDir::are_adjacent is exact and antisymmetric", "statement": "are_adjacent(a, b) returns Some(d) exactly when d is one of the six edge directions and stepping from a in direction d ends at b; it returns None for every other pair (including a = b); and are_adjacent(b, a) is the flip of are_adjacent(a, b).", "quantifier": "every ordered pair of grid positions", "why_tests_cant": "pairs of positions are unbounded and parity dependent", "anchors": ["src/cell_dir.rs: CellDir::are_adjacent"]}
{"id": "C03", "title": "CellDir::path_from_to leads to the target", "statement": "Following the directions returned by path_from_to(a, b) from a, never leaving the grid, ends at b, and the path has at most |dx|+|dy| steps.", "quantifier": "every pair of grid positions", "why_tests_cant": "the greedy search has a distance cut off and a step budget; only a proof tells for which pairs it succeeds (it fails for far apart pairs, see the negation theorem)", "anchors": ["src/cell_dir.rs: CellDir::path_from_to"]}
{"id": "C04", "title": "Execution order is topological", "statement": "Whenever the graph ordering reports success, the returned order contains every added node exactly once and nothing else, and for every edge added between known nodes the source precedes the target.", "quantifier": "every sequence of add_node / add_edge calls (of any length, any node ids) starting from a cleared ordering, whose nodes have at most 64 distinct successors", "why_tests_cant": "graphs are unbounded; a unit test checks a handful of shapes", "anchors": ["src/nodes/node_graph_ordering.rs: NodeGraphOrdering::add_node, add_edge, calculate_order"]}
{"id": "C05", "title": "Ordering succeeds exactly for acyclic graphs", "statement": "calculate_order returns true if and only if the added edges contain no directed cycle (self loops are cycles); on false the output list is empty.", "quantifier": "every sequence of add_node / add_edge calls starting from a cleared ordering", "why_tests_cant": "completeness of cycle detection quantifies over all graphs", "anchors": ["src/nodes/node_graph_ordering.rs: NodeGraphOrdering::calculate_order"]}
{"id": "C06", "title": "has_path answers are truthful", "statement": "If has_path(a, b) answers Some(true) there is a directed path from a to b (or a = b); if it answers Some(false) there is none; the search always terminates.", "quantifier": "every graph built by add_node / add_edge and every pair of node ids", "why_tests_cant": "reachability over all graphs; also the undocumented None answer for acyclic diamond graphs is only visible on particular shapes", "anchors": ["src/nodes/node_graph_ordering.rs: NodeGraphOrdering::has_path"]}
{"id": "C07", "title": "Matrix::place and Matrix::get behave like a 2D array", "statement": "After place(x, y, c), get(x, y) returns c carrying position (x, y) when (x, y) is inside the matrix; every other position is unchanged; outside positions are ignored and get answers None there.", "quantifier": "every matrix size, every history of place calls, every position", "why_tests_cant": "index arithmetic x*h+y must not alias for any size", "anchors": ["src/matrix.rs: Matrix::place, Matrix::get, Matrix::get_copy"]}
{"id": "C08", "title": "A rejected matrix change leaves the grid as it was", "statement": "If change_matrix / change_matrix_err / the failed check returns an error, every cell of the matrix is exactly what it was before the call; if it returns Ok, the cells are those the closure produced and they pass check.", "quantifier": "every matrix, every closure made of place/clear operations, every outcome", "why_tests_cant": "all histories and closures; roll back must hold for each", "anchors": ["src/matrix.rs: Matrix::change_matrix, change_matrix_err, save_matrix, restore_matrix, check"]}
{"id": "C09", "title": "Matrix::check accepts exactly the legal grids", "statement": "check returns Ok if and only if no input port of any node is fed by two different connected cell edges and the node graph induced by the connected edges is acyclic; DuplicatedInput takes precedence over CycleDetected.", "quantifier": "every grid of every size and content", "why_tests_cant": "all grids, all cycle shapes", "anchors": ["src/matrix.rs: Matrix::check, update_graph_ordering_and_edges"]}
{"id": "C10", "title": "Connections are exactly the facing assigned ports", "statement": "The list of connections the matrix compiles contains (source node, output, target node, input) exactly when two neighbouring cells face each other with an assigned output on the source cell's edge and an assigned input on the target cell's edge; each such edge appears once.", "quantifier": "every grid of every size and content", "why_tests_cant": "all grids; no sampling covers parity, border and empty cell combinations", "anchors": ["src/matrix.rs: Matrix::update_graph_ordering_and_edges, get_adjacent_output, get_adjacent"]}
{"id": "C11", "title": "Node port regions are disjoint and complete", "statement": "After a rebuild every node owns a contiguous region of the global output, input, atom and modulator index space whose length is the number of ports of its type; regions of different nodes are disjoint and together cover exactly 0..total; local to global index translation followed by ownership lookup finds the same node.", "quantifier": "every list of allocated nodes of any length and port counts", "why_tests_cant": "prefix sum arithmetic over all node lists", "anchors": ["src/nodes/node_conf.rs: NodeConfigurator::rebuild_node_ports, NodeInstance::in_local2global, out_local2global", "src/nodes/node_prog.rs: NodeOp::in_idx_belongs_to_nodeop, out_idx_belongs_to_nodeop"]}
{"id": "C12", "title": "A processed block computes the data flow of the graph", "statement": "After the program built from an acyclic set of connections has processed one block, each connected input has been read from the output its source node produced in the same block, each unconnected input from the parameter value, and each node ran exactly once: the block output equals the fixpoint of the data flow equations.", "quantifier": "every acyclic graph of at most 256 nodes (for more see C98), every node behaviour (arbitrary function of state and inputs), every parameter setting, every block", "why_tests_cant": "all graphs and all node functions; a missed edge or wrong order only shows for specific graphs", "anchors": ["src/nodes/node_prog.rs: NodeProg::append_op, append_edge, assign_outputs", "src/nodes/node_exec.rs: NodeExecutor::process", "src/matrix.rs: Matrix::build_prog"]}
{"id": "C13", "title": "Modulated inputs receive parameter plus amount times signal", "statement": "For an input with modulation amount m connected to an output, each sample read by the node is parameter + m * output sample of the same frame, and an input without amount reads the raw output; other inputs are unaffected.", "quantifier": "every program, every input, every block content", "why_tests_cant": "interaction of shared buffers over all programs", "anchors": ["src/nodes/node_prog.rs: ModOp::process, NodeProg::append_edge, assign_outputs"]}
{"id": "C14", "title": "Connectedness flags tell the truth", "statement": "The in_connected / out_connected bit masks a node sees have bit i set if and only if some connection of the program uses that node's input i (output i).", "quantifier": "every program and every set of appended edges", "why_tests_cant": "bit set bookkeeping over all edge sequences", "anchors": ["src/nodes/node_prog.rs: NodeOp::set_in_idx_connected_flag, set_out_idx_connected_flag, NodeProg::append_edge"]}
{"id": "C15", "title": "Parameter updates reach the audio thread", "statement": "After the frontend sets a parameter and the executor has processed enough blocks, the parameter buffer the node reads holds the latest value set; no parameter the user did not touch changes.", "quantifier": "every interleaving of parameter updates and processed blocks", "why_tests_cant": "all interleavings; the smoother pool is finite, so bursts behave differently (see the negation theorem)", "anchors": ["src/nodes/node_exec.rs: NodeExecutor::set_param, process_smoothers, process_param_updates"]}
{"id": "C16", "title": "Parameter smoothing is monotone and ends exactly on the target", "statement": "A smoother started at v towards t yields values that move monotonically, stay between v and t, and after its smoothing time is done and yields t exactly; retargeting midway continues from the current value.", "quantifier": "every start value, target, sample rate and number of steps (real arithmetic)", "why_tests_cant": "all values and step counts", "anchors": ["src/util.rs: Smoother"]}
{"id": "C17", "title": "Parameter values survive graph rebuilds", "statement": "Rebuilding the node program keeps the value (and modulation amount) of every parameter the user has set, gives not yet set parameters their default, and places each value at the global index of its port in the new program.", "quantifier": "every sequence of node creations, parameter changes and rebuilds", "why_tests_cant": "histories are unbounded", "anchors": ["src/nodes/node_conf.rs: NodeConfigurator::set_param, set_param_modamt, rebuild_node_ports, get_param"]}
{"id": "C18", "title": "Patch representation round trip", "statement": "to_repr followed by from_repr into a matrix of the same size restores every cell, every set parameter, atom and modulation amount and every property.", "quantifier": "every matrix state reachable through the API", "why_tests_cant": "all states", "anchors": ["src/matrix.rs: Matrix::to_repr, from_repr, Cell::to_repr, Cell::from_repr", "src/nodes/node_conf.rs: dump_param_values, load_dumped_param_values"]}
{"id": "C19", "title": "Serialized patch round trip", "statement": "deserialize(serialize(repr)) succeeds and returns a representation equal to the original up to the documented ordering of lists, for every representation produced by a matrix; a newer version number is rejected.", "quantifier": "every matrix representation", "why_tests_cant": "all documents", "anchors": ["src/matrix_repr.rs: MatrixRepr::serialize, deserialize, CellRepr, PatternRepr, serialize_atom, deserialize_atom"]}
{"id": "C20", "title": "Saving a patch is crash safe", "statement": "If saving a patch to a file is interrupted at any point, the file at the destination path holds either the complete previous content or the complete new content; after an Ok result it holds the new content; after an Err it still holds the old content.", "quantifier": "every previous file system content, every new content, every crash point and every failing step", "why_tests_cant": "crash points cannot be enumerated by unit tests", "anchors": ["src/matrix_repr.rs: MatrixRepr::write_to_file"]}
{"id": "C21", "title": "Monitor buffers are conserved", "statement": "The monitor buffers allocated at start up are neither lost nor duplicated by the exchange between audio and frontend thread: the recycling queue never overflows, no buffer is ever in two places.", "quantifier": "every interleaving of backend and frontend operations, any number of steps", "why_tests_cant": "all schedules", "anchors": ["src/monitor.rs: MonitorBackend, MonitorProcessor::process, new_monitor_processor"]}
{"id": "C22", "title": "Monitor min/max points are the true extremes of their window", "statement": "Each min/max point shown for a monitored signal is the exact minimum and maximum of the corresponding window of consecutive samples fed, in order, independent of how the samples were split into buffers.", "quantifier": "every sample stream and every split into buffers", "why_tests_cant": "all streams and splits", "anchors": ["src/monitor.rs: MonitorMinMax::process, MonitorBuf::feed, next_sample_for_signal"]}
{"id": "C23", "title": "MIDI events are delivered in the right block at the right offset", "statement": "Feeding a time ordered event list through the block windowing delivers every event exactly once, in order, in the block that contains its timestamp, with the timestamp made relative to the block start, as long as no block gets 512 notes or 1024 controller changes or more (beyond which events come late and the block after panics).", "quantifier": "every ordered event list, every block size sequence", "why_tests_cant": "all event timings relative to block borders", "anchors": ["src/nodes/midi.rs: EventWindowing", "src/nodes/node_exec.rs: test_run_input"]}
{"id": "C24", "title": "Nodes see each MIDI event of a block exactly once, at its frame", "statement": "Scanning a block frame by frame, MidiEventPointer yields the events of the block in order, each exactly once, at the first frame not earlier than its timing (given ordered events).", "quantifier": "every ordered event buffer and every block length", "why_tests_cant": "all event lists", "anchors": ["src/nodes/midi.rs: MidiEventPointer::next_at"]}
{"id": "C25", "title": "MidiP gate follows the held note", "statement": "In MIDI gate mode the gate output of MidiP is high exactly while the most recently played note of the channel has not been released (apart from the one frame retrigger dip), and pitch and velocity are those of the most recent note on.", "quantifier": "every event sequence on every channel, every block split", "why_tests_cant": "all event sequences; several events on the same frame interact (see the negation theorem)", "anchors": ["src/dsp/node_midip.rs: MidiP::process"]}
{"id": "C26", "title": "MidiCC outputs the latest controller value", "statement": "Each MidiCC output slot follows the most recent value of its controller on its channel and ignores everything else.", "quantifier": "every event sequence, every channel and controller assignment", "why_tests_cant": "all event sequences and assignments (two slots may listen to the same controller: see the negation theorem)", "anchors": ["src/dsp/node_midicc.rs: MidiCC::process"]}
{"id": "C27", "title": "Visual sampling filter reports current or last extremes", "statement": "VisualSamplingFilter::get returns for a cell the exact positive and negative maxima over the last ten samples handed in for it, recomputed when the recalculation bit flips.", "quantifier": "every history of calls", "why_tests_cant": "histories are unbounded", "anchors": ["src/nodes/visual_sampling_filter.rs: VisualSamplingFilter"]}
{"id": "C28", "title": "LED and output feedback display values", "statement": "Within one UI frame every further request for the LED or output feedback of a node gives the same answer as the first; the answers for one node and output do not depend on the requests for others; and if a value is requested in every frame, the answer is the pair of the largest magnitudes among the negative and among the non-negative of the last ten samples that were current in their frame (the very first sample is left out if it is requested in an odd numbered frame).", "quantifier": "every history of trigger_recalc / get_led calls", "why_tests_cant": "histories are unbounded", "anchors": ["src/nodes/feedback_filter.rs: FeedbackFilter"]}
{"id": "C29", "title": "Feedback reader sees the writer's signal after the fixed delay", "statement": "A FbRd reading the buffer of a FbWr yields, at sample n, the sample written at n minus the delay length (zero before that), for every interleaving by blocks of at most 128 samples.", "quantifier": "every sample rate, signal and block partition, either execution order of reader and writer", "why_tests_cant": "all block partitions and orders (the first sample and the writer-first order violate it: see the negation theorems)", "anchors": ["src/shared_feedback.rs: SharedFeedback, SharedFeedbackWriter, SharedFeedbackReader", "src/dsp/node_fbwr_fbrd.rs"]}
{"id": "C30", "title": "Scope buffer accesses stay in range and return the last write", "statement": "Every read and write of the scope handle is in range for every index; a read returns the last value written at that index modulo the buffer size on that signal and other slots are untouched; oversampled writes never run over the end.", "quantifier": "every index and every write history", "why_tests_cant": "index arithmetic for all indices", "anchors": ["src/scope_handle.rs: ScopeHandle::write, write_oversampled, read"]}
{"id": "C31", "title": "Tracker cell values stay within 12 bit", "statement": "Every value that change_value stores is between 0 and 0xFFF, whatever sequence of edits is applied, and equals the clamped sum.", "quantifier": "every pattern state, every delta, every edit history", "why_tests_cant": "i16/u16 arithmetic over all values", "anchors": ["src/dsp/tracker/pattern.rs: PatternData::change_value"]}
{"id": "C32", "title": "Tracker pattern representation round trip", "statement": "Loading the representation of a pattern into a pattern reproduces every cell value, column type, row count, edit step and cursor position.", "quantifier": "every pattern state", "why_tests_cant": "all states", "anchors": ["src/dsp/tracker/pattern.rs: PatternData::to_repr, from_repr"]}
{"id": "C33", "title": "Tracker edits arrive at the audio thread", "statement": "After edits stop and the frontend has sent its pending updates while the queue has room, the column data and row count the sequencer plays equal what the pattern displays.", "quantifier": "every interleaving of edits, updates and audio side polls", "why_tests_cant": "all interleavings; the queue is finite (see the negation theorem)", "anchors": ["src/dsp/tracker/mod.rs: Tracker::send_one_update, TrackerBackend::check_updates"]}
{"id": "C34", "title": "Pattern columns compile to the documented signal", "statement": "A step column holds the value of the last set cell at or above the row and 0 before the first one, a note column likewise with the pitch of the note; a value column interpolates linearly between set cells, an empty first or last row counting as 0. The gate flags of step and note columns mark exactly the rows with set cells, those of gate columns the cells themselves.", "quantifier": "every column content and pattern length", "why_tests_cant": "all columns", "anchors": ["src/dsp/tracker/pattern.rs: PatternData::sync_out_data"]}
{"id": "C35", "title": "Sequencer phase lookup selects a valid row", "statement": "For every phase in [0, 1] and every pattern length between 1 and 256 the looked up row is below the pattern length, is monotone in the phase and every row is selected by some phase; the interpolated output lies between the two neighbouring row values.", "quantifier": "every phase, every row count (real arithmetic)", "why_tests_cant": "continuous phase domain", "anchors": ["src/dsp/tracker/sequencer.rs: PatternSequencer::col_get_at_phase, col_interpolate_at_phase, col_gate_at_phase"]}
{"id": "C36", "title": "Chain builder lays out a connected chain", "statement": "Placing a chain puts its cells at the positions obtained by walking the recorded directions from the start position, each consecutive pair being adjacent, and fails without touching cells outside the walked positions.", "quantifier": "every chain and start position", "why_tests_cant": "all chains", "anchors": ["src/chain_builder.rs: MatrixCellChain::place"]}
{"id": "C37", "title": "SynthConstructor executes nodes after their sources", "statement": "A successful upload of a constructed node network executes every node once, after all nodes it reads from; a network with a cycle is rejected.", "quantifier": "every constructed network and every history of uploads", "why_tests_cant": "all networks and histories (a rejected cyclic upload poisons later ones: see the negation theorem)", "anchors": ["src/synth_constructor.rs: SynthConstructor::upload", "src/build.rs"]}
{"id": "C38", "title": "Blocks in a block area never overlap", "statement": "In every state reachable through the BlockFun API, every grid slot belongs to at most one block, and looking up any slot of a block finds exactly that block.", "quantifier": "every sequence of block operations", "why_tests_cant": "all histories", "anchors": ["src/wblockdsp/language.rs: BlockArea::update_origin_map, check_space_at, BlockFun::instanciate_at, move_block_from_to, clone_block_from_to, remove_at"]}
{"id": "C39", "title": "Failed block operations change nothing visible", "statement": "If instantiating, moving, cloning or removing a block (or moving or splitting a chain) returns an error, every existing area shows the same blocks at the same positions as before.", "quantifier": "every program state and every argument", "why_tests_cant": "all states and arguments (moving to an unknown area violates it: see the negation theorem)", "anchors": ["src/wblockdsp/language.rs: BlockFun::instanciate_at, move_block_from_to, clone_block_from_to, remove_at, split_block_chain_after, move_block_chain_from_to"]}
{"id": "C40", "title": "Block area nesting stays a tree", "statement": "Sub areas never contain themselves directly or indirectly and every area is contained in at most one block, so size recalculation terminates.", "quantifier": "every sequence of block operations", "why_tests_cant": "all histories", "anchors": ["src/wblockdsp/language.rs: BlockFun::create_areas_for_block, move_block_from_to, area_is_subarea_of, recalculate_area_sizes"]}
{"id": "C41", "title": "Block ids are unique", "statement": "No two blocks ever placed in a block program by instantiation or cloning share an id, and ids are never zero.", "quantifier": "every sequence of block operations including snapshot restores", "why_tests_cant": "all histories", "anchors": ["src/wblockdsp/language.rs: BlockIDGenerator, BlockFun::instanciate_at, clone_block_from_to, load_snapshot"]}
{"id": "C42", "title": "Block program snapshots round trip", "statement": "Serializing and deserializing a block program snapshot yields the same areas, blocks and id counter.", "quantifier": "every block program", "why_tests_cant": "all programs", "anchors": ["src/wblockdsp/language.rs: BlockFunSnapshot::serialize, deserialize, BlockArea::serialize, Block::serialize"]}
{"id": "C43", "title": "Node and parameter names identify uniquely", "statement": "Node ids survive the conversion to name and instance and back; looking up a parameter by name or by index yields the same parameter; parameter indices of a node type are dense, inputs before atoms; names are unique.", "quantifier": "every node type, every parameter, every string", "why_tests_cant": "finite table but every entry and every foreign string must be covered", "anchors": ["src/dsp/mod.rs: node_list!, NodeId::from_str, name, inp_param, param_by_idx, inp_param_by_idx, atom_param_by_idx, ParamId::is_atom"]}
{"id": "C44", "title": "Normalisation is inverse to denormalisation", "statement": "For every parameter curve: denorm maps the normalised range onto the documented physical range monotonically and norm(denorm(x)) = x on it.", "quantifier": "every curve and every normalised value (real arithmetic)", "why_tests_cant": "continuous domain", "anchors": ["src/dsp/mod.rs: define_lin!, define_exp!, define_exp4!, define_exp6!, define_db!, n_pit!, d_pit!, n_det!, d_det!"]}
{"id": "C45", "title": "Sample cache returns one consistent buffer per path", "statement": "Loading a path twice returns the same sample data without re-reading the file, data of different paths never mix, and failed loads are not cached.", "quantifier": "every sequence of load calls and every file system history", "why_tests_cant": "all histories", "anchors": ["src/sample_lib.rs: SampleLibrary::load"]}
{"id": "C46", "title": "Log messages arrive in order and unmixed", "statement": "Messages logged from a thread are delivered to the reader as a sequence of complete messages in order.", "quantifier": "every sequence of messages and polls", "why_tests_cant": "all interleavings (long messages violate it: see the negation theorem)", "anchors": ["src/log.rs"]}
{"id": "C47", "title": "Mux9 always selects one of the configured inputs", "statement": "The selected input index is always below the configured input count; up/down triggers step cyclically, reset selects the first.", "quantifier": "every trigger history and configured count", "why_tests_cant": "histories are unbounded", "anchors": ["src/dsp/node_mux9.rs: Mux9::process"]}
{"id": "C48", "title": "Clipped mapping stays within the output range", "statement": "With clipping enabled SMap and Map never leave the interval spanned by min and max, whatever the input; without clipping the end points of the input range map to min and max.", "quantifier": "every input, min, max (real arithmetic)", "why_tests_cant": "continuous domain", "anchors": ["src/dsp/node_smap.rs: SMap::process", "src/dsp/node_map.rs: Map::process"]}
{"id": "C49", "title": "Free neighbour search returns usable neighbours", "statement": "find_first_adjacent_free / find_all_adjacent_free return only in-grid, empty cells adjacent to the queried cell in the reported direction, and return nothing only when no such neighbour of the requested kind exists.", "quantifier": "every grid and position", "why_tests_cant": "all grids", "anchors": ["src/matrix.rs: Cell::find_first_adjacent_free, find_all_adjacent_free"]}
{"id": "C50", "title": "Unused instance allocation never hands out an instance in use", "statement": "unused_instance_node_id returns, counting instances up from the given one, the first instance of that node type that the current program does not use, and it returns exactly if there is such an instance; creating the nodes of a matrix makes the allocated instances of each node type contiguous from zero.", "quantifier": "every set of allocated nodes", "why_tests_cant": "all sets", "anchors": ["src/nodes/node_conf.rs: unused_instance_node_id", "src/matrix.rs: Matrix::create_intermediate_nodes"]}
{"id": "C51", "title": "Exchanged node programs never share or double free buffers", "statement": "Through every sequence of program exchanges each sample buffer is owned by exactly one live program, is freed at most once and never used after being freed.", "quantifier": "every sequence of program uploads, exchanges and drops", "why_tests_cant": "all histories", "anchors": ["src/nodes/node_prog.rs: NodeProg::new, swap_previous_outputs, Drop", "src/nodes/node_exec.rs: process_graph_updates"]}
{"id": "C52", "title": "Graph messages are applied in order", "statement": "The executor applies the graph messages it receives in the order they were sent, none twice, and a message is lost only if the queue was full when it was sent.", "quantifier": "every interleaving of frontend sends and executor polls", "why_tests_cant": "all schedules", "anchors": ["src/nodes/node_conf.rs: NodeConfigurator (ring buffer sends)", "src/nodes/node_exec.rs: process_graph_updates"]}
{"id": "C53", "title": "Output feedback shows the last sample of the block", "statement": "After the audio thread has taken over the current program and processed a block, the feedback value reported for an output of a node is the last sample that output had in that block, and there is no value for an output the node does not have.", "quantifier": "every history of matrix and engine calls, node behaviour and block", "why_tests_cant": "depends on index regions kept by two threads across every program exchange", "anchors": ["src/nodes/node_conf.rs: out_fb_for, update_output_feedback", "src/nodes/node_exec.rs: process", "src/nodes/node_prog.rs"]}
{"id": "C54", "title": "The monitor shows the monitored ports", "statement": "After a block, the signals handed to the monitor are exactly the blocks the monitored inputs and outputs of the chosen node had in that block, each under its slot (0 to 2 inputs, 3 to 5 outputs); ports the node does not have are not shown and without a monitored node nothing is shown.", "quantifier": "every history of engine calls, node behaviour, choice of monitored node and block", "why_tests_cant": "the monitor keeps raw buffer indices computed by the other thread, which must stay right over every program exchange", "anchors": ["src/nodes/node_conf.rs: monitor, in2/out2 index computation", "src/nodes/node_exec.rs: process, set_param, monitor feeding", "src/matrix.rs: monitor_cell"]}
{"id": "C55", "title": "Injected MIDI events are played in order", "statement": "MIDI events injected by the frontend before a block are played in that block, in its first frame, in the order they were injected.", "quantifier": "every sequence of injected events, event list and block sizes", "why_tests_cant": "all event sequences; a test with one injected event per block cannot see the order (see the negation theorem)", "anchors": ["src/nodes/node_exec.rs: NodeExecutor::feed_midi_events_from", "src/nodes/node_conf.rs: inject_midi_event"]}
{"id": "C56", "title": "Inputs beyond the mapped range are clipped to its nearer end", "statement": "With clipping enabled an input of SMap or Map beyond an end of the input range gives the same output as that end; within the range the mapping is affine.", "quantifier": "every input and all settings (real arithmetic)", "why_tests_cant": "continuous domain (Map violates it below the range: see the negation theorem)", "anchors": ["src/dsp/node_smap.rs: SMap::process", "src/dsp/node_map.rs: Map::process"]}
{"id": "C57", "title": "The text shown for a tracker cell is that of its value", "statement": "The text the tracker shows for a cell is the three digit hexadecimal form of the value of that cell, and three dashes for an empty cell, after every sequence of edits and loads.", "quantifier": "every sequence of pattern edits, loads and displays", "why_tests_cant": "unbounded histories (violated after loading a pattern: see the negation theorem)", "anchors": ["src/dsp/tracker/pattern.rs: PatternData::get_cell, change_value, set_cell_value, clear_cell, from_repr"]}
{"id": "C58", "title": "A tracker view sees every change", "statement": "The generation number of a pattern rises with every edit that changes what the pattern shows, so that a view that compares generation numbers never misses a change.", "quantifier": "every pattern and every edit", "why_tests_cant": "all edits in all states", "anchors": ["src/dsp/tracker/pattern.rs: PatternData::get_generation and the edit methods"]}
{"id": "C59", "title": "Gate cells mean probability, ratchets and length", "statement": "A gate cell with the three hexadecimal digits P, R, L divides its row into 16 - R equal parts and is on during the first (L + 1) / 16 of each part; with P = 0xF always, otherwise if the random number of the row is at most (P + 1) / 16. An empty cell is silent.", "quantifier": "all cells, positions in the row and random numbers", "why_tests_cant": "4096 cell values times a continuum of positions and random numbers", "anchors": ["src/dsp/tracker/sequencer.rs: PatternSequencer::col_gate_at_phase"]}
{"id": "C60", "title": "A random gate is drawn anew each time its row is played", "statement": "Each time the playing position enters a row with a random gate cell a new random number decides about it; during the row it stays the same.", "quantifier": "every pattern, every sequence of phases and every random generator", "why_tests_cant": "unbounded playing time (violated when no other random row is played in between: see the negation theorem)", "anchors": ["src/dsp/tracker/sequencer.rs: PatternSequencer::col_gate_at_phase"]}
{"id": "C61", "title": "Node information and ids agree on names", "statement": "The name of an input, atom or output that the node information gives for an index is the name of the parameter or port with that index.", "quantifier": "every node type and every index", "why_tests_cant": "every row of the table and every index (violated for atoms: see the negation theorems)", "anchors": ["src/dsp/mod.rs: NodeInfo::in_name, at_name, out_name, NodeId::inp_name_by_idx, atom_param_by_idx, out_name_by_idx, node_list!"]}
{"id": "C62", "title": "Physical values outside of the range of a parameter", "statement": "Setting a parameter to a physical value below or above its range never gives a value farther inside of the range than the nearest end: normalising is monotone.", "quantifier": "every curve and every physical value (real arithmetic)", "why_tests_cant": "continuous domain (violated below the range: see the negation theorems)", "anchors": ["src/dsp/mod.rs: define_lin!, define_exp!, define_exp6!, n_pit!, ParamId::norm, denorm"]}
{"id": "C63", "title": "Default values lie within the range of their parameter", "statement": "The default value of every input parameter lies between its minimum and maximum.", "quantifier": "every input parameter of every node", "why_tests_cant": "every row of the table, with logarithms (violated by two parameters: see the negation theorem)", "anchors": ["src/dsp/mod.rs: node_list!, ParamId::norm_def, param_min_max"]}
{"id": "C64", "title": "Block areas are as large as their content", "statement": "After recalculating the sizes, every area reachable from the first one has the smallest width and height in which all its blocks, and the sub areas drawn at their blocks, fit; an area that does not shrink keeps at least its former size.", "quantifier": "every reachable block program, every area, every depth of nesting", "why_tests_cant": "all programs and all depths of nesting", "anchors": ["src/wblockdsp/language.rs: BlockFun::recalculate_area_sizes, BlockArea::resolve_size_func"]}
{"id": "C65", "title": "Chains of blocks are taken and moved as a whole", "statement": "Taking out or moving the chain at a slot affects exactly the blocks connected to the block there by any number of adjacent ports; a moved chain keeps its shape, all other blocks stay. It goes exactly to the place asked for if there is room, else to a place with room at most one column and three rows off inside of the area, and the move fails exactly if there is none (or if the area asked for does not exist or lies inside of the chain).", "quantifier": "every reachable block program, every area, slot and target", "why_tests_cant": "all programs and chains of all shapes", "anchors": ["src/wblockdsp/language.rs: BlockArea::chain_at, BlockFun::retrieve_block_chain_at, move_block_chain_from_to, BlockChain::try_fit_load_into_space, normalize_load_pos"]}
{"id": "C66", "title": "Block program calls return", "statement": "Every call on a block program returns: no loop runs forever and no call panics.", "quantifier": "every reachable block program and every call with any arguments", "why_tests_cant": "all histories and arguments (violated by two calls: see the negation theorems)", "anchors": ["src/wblockdsp/language.rs: BlockFun::shift_port, all_sub_areas_of, recalculate_area_sizes, BlockArea::chain_at"]}
{"id": "C67", "title": "Successful block calls do exactly what they say", "statement": "A call that places, removes, moves or clones a block, or splits a chain, and reports success changes exactly the blocks it names: the new, moved or cloned block is at its target with its fields (a new id and new sub areas for new blocks), and every other block of every area stays where it was.", "quantifier": "every reachable block program, every such call with any arguments", "why_tests_cant": "all programs and arguments, and all other blocks of the program", "anchors": ["src/wblockdsp/language.rs: BlockFun::instanciate_at, remove_at, move_block_from_to, clone_block_from_to, split_block_chain_after"]}
{"id": "C68", "title": "Loading a snapshot brings back the program", "statement": "A snapshot loaded after any further calls brings back all blocks and slots at the time it was taken, and the id the next block would have got then.", "quantifier": "every reachable block program at the time of the snapshot, every later history of calls (including other snapshots and restores)", "why_tests_cant": "all histories before and after the snapshot", "anchors": ["src/wblockdsp/language.rs: BlockFun::save_snapshot, load_snapshot"]}
{"id": "C69", "title": "Changes of a block program are noticed", "statement": "Whenever a call changes the blocks of a block program, the generation counter (by which changed programs are found and compiled again) grows; it never grows back.", "quantifier": "every reachable block program and every call", "why_tests_cant": "all histories and calls (violated by taking out a chain: see the negation theorem)", "anchors": ["src/wblockdsp/language.rs: BlockFun::generation, instanciate_at, remove_at, move_block_from_to, clone_block_from_to, split_block_chain_after, move_block_chain_from_to, retrieve_block_chain_at, shift_port, load_snapshot", "src/global.rs: check_code"]}
{"id": "C70", "title": "Reading any document returns", "statement": "Reading a patch from any document, also one made by hand or by another program, returns a patch or an error and does not panic.", "quantifier": "every JSON document", "why_tests_cant": "all documents (violated by pattern tables that are too large: see the negation theorem)", "anchors": ["src/matrix_repr.rs: MatrixRepr::deserialize, CellRepr::deserialize, PatternRepr::deserialize, deserialize_atom"]}
{"id": "C71", "title": "Saving a patch is deterministic", "statement": "The saved document does not depend on the order in which parameters, atoms and properties happen to be listed; a patch that was read and is saved again gives the same document.", "quantifier": "every patch representation and every order of its lists", "why_tests_cant": "all orders of the hash tables the lists come from", "anchors": ["src/matrix_repr.rs: MatrixRepr::serialize, deserialize", "src/dsp/mod.rs: ParamId, NodeId (derived order)"]}
{"id": "C72", "title": "What a loaded sample contains", "statement": "A loaded sample consists of the sample rate followed by the first channel of the WAV file, at most 60 seconds of it; a file that can not be opened gives an error, and a readable file is loaded. Samples of 16 bits lose nothing: each becomes its 32768th part, from -1 to below 1.", "quantifier": "every WAV file, as decoded by the reading library", "why_tests_cant": "all lengths and channel counts", "anchors": ["src/sample_lib.rs: SampleLibrary::load"]}
{"id": "C73", "title": "Nodes and parameters of a placed chain", "statement": "Placing a chain gives every cell a node of its own that is not in use yet, and sets the parameters given for a cell on the node of that cell; no other parameter changes.", "quantifier": "every sequence of builder calls, every matrix and start position", "why_tests_cant": "all sets of nodes in use and all chains", "anchors": ["src/chain_builder.rs: MatrixCellChain::place, set_denorm, set_norm, set_atom"]}
{"id": "C74", "title": "An uploaded network is what is played", "statement": "After a successful upload and once the messages have reached the audio thread, every block computes the network: each node runs on the outputs its sources produced in the same block, combined with the parameters, settings and modulation amounts set last.", "quantifier": "every history of uploads, parameter updates and clears, every network the builders can make, every interleaving with the audio thread", "why_tests_cant": "all networks, all histories, all interleavings and all hash map iteration orders", "anchors": ["src/synth_constructor.rs: SynthConstructor::upload, update_params, clear", "src/build.rs"]}
{"id": "C75", "title": "update_params reports whether it made a new program", "statement": "update_params sets parameters without a new program, or uploads the network and reports true; in both cases what was passed is played afterwards.", "quantifier": "every history and every network passed", "why_tests_cant": "all histories and networks", "anchors": ["src/synth_constructor.rs: SynthConstructor::update_params, walk_upload, update_node_params"]}
{"id": "C76", "title": "The matrix plays its grid", "statement": "After a sync (or clear, from_repr, or a modulation amount that appears or disappears) that succeeds, and whatever is called afterwards that makes no new program, a block of audio computes the grid as it was then: every node in a cell runs once, in an order that follows the wires, each wire carries the output its source produced in the same block (times the modulation amount, added to the parameter), an input without a wire shows the parameter, with the atoms set last.", "quantifier": "every history of calls of the matrix, every grid, every later edit of the grid, every interleaving with the audio thread", "why_tests_cant": "all histories, grids and interleavings", "anchors": ["src/matrix.rs: Matrix::sync, clear, from_repr, set_param, set_param_modamt, monitor_cell, save_matrix, restore_matrix, check", "src/nodes/node_conf.rs", "src/nodes/node_exec.rs"]}
{"id": "C77", "title": "A loaded patch plays like the one that was saved", "statement": "If a patch saved from a matrix is loaded into another one without error, the blocks of audio there compute the grid of the first, with its values.", "quantifier": "every pair of reachable matrices, every interleaving with the audio thread", "why_tests_cant": "all pairs of histories", "anchors": ["src/matrix.rs: Matrix::to_repr, from_repr"]}
{"id": "C78", "title": "sync and clear do not panic", "statement": "clear never panics; sync does not either, and fails exactly if the grid has a loop.", "quantifier": "every reachable matrix", "why_tests_cant": "all histories and grids (violated by a wire to an input number 32, and by more than 64 nodes after one: see the negation theorems)", "anchors": ["src/matrix.rs: Matrix::sync, clear", "src/nodes/node_conf.rs: rebuild_node_ports, set_prog_node_exec_connection", "src/dsp/mod.rs: NodeInfo"]}
{"id": "C79", "title": "Sample playback follows the play head", "statement": "A triggered sample player plays the part of the recording chosen by the offset and the length, at the speed of the frequency input, forwards or backwards. Loop mode repeats the part forever. One shot mode plays it once and is silent before and after. It never reads outside of the part and the block size does not matter.", "quantifier": "every recording, every part, every sequence of speeds, every block division and every number of frames", "why_tests_cant": "The play head depends on the whole history of speeds and on how frames fall into blocks; a test plays a few sounds.", "anchors": ["src/dsp/node_sampl.rs: Sampl::process, play, next_sample"]}
{"id": "C80", "title": "Declicking is safe and smooth", "statement": "With declicking on, the sample player does not jump when it is triggered again, starts from silence, is never louder than the recording or full scale, and never panics, whatever the speed and the part are changed to.", "quantifier": "every recording, every history of triggers, speeds, offsets and lengths", "why_tests_cant": "It must hold at every moment at which a trigger or a change of the part can happen.", "anchors": ["src/dsp/node_sampl.rs: Sampl::play"]}
{"id": "C81", "title": "Blocks keep the ports of their type", "statement": "In every block program that a sequence of calls of the editing API leads to, every block has the inputs and outputs (by name, in some order of rows) and the height that the definition of its type in the block language gives, and no block that is not of a type with sub areas has one.", "quantifier": "all sequences of editing calls (instantiate, remove, move, clone, split, move and retrieve chains, shift ports, recalculate, save and restore snapshots), all libraries of nodes", "why_tests_cant": "Ports are permuted by shifting, blocks are cloned, moved between areas, saved and restored; tests look at a handful of these.", "anchors": ["src/wblockdsp/language.rs: BlockFun, Block::shift_port, BlockType::instanciate_block", "src/wblockdsp/definition.rs: setup_hxdsp_block_language"]}
{"id": "C82", "title": "The compiled block program does what the diagram means", "statement": "For a diagram of blocks the compiler returns a program, and evaluating that program leaves the state of the nodes, the variables set by the user and the value as the diagram says: every block takes the values on the wires at its inputs, zero where there is none, runs when its value is first needed, and the effects happen from top to bottom and in a row from left to right; the value is that of the last output without a wire.", "quantifier": "all reachable block programs, all libraries of nodes, all meanings of operators and nodes, all initial variables and node states", "why_tests_cant": "The compiler keeps shared outputs in temporary variables and orders statements; every diagram is another case, tests compare a few of them.", "anchors": ["src/wblockdsp/compiler.rs: Block2JITCompiler::compile, trans2bjit, bjit2jit", "src/wblockdsp/language.rs: BlockFun::generate_tree, BlockArea::collect_sinks"]}
{"id": "C83", "title": "Every node of a block diagram is called exactly once per evaluation", "statement": "One evaluation of the compiled program calls the node of every block in the main area exactly once, however many of its outputs are used and however often, and calls no other node.", "quantifier": "all reachable block programs, all libraries, all node states", "why_tests_cant": "A node called twice would advance its state twice, which shows only for diagrams that share outputs in particular ways.", "anchors": ["src/wblockdsp/compiler.rs: Block2JITCompiler::compile, trans2bjit", "src/wblockdsp/language.rs: BlockFun::generate_tree"]}
{"id": "C84", "title": "After check_code returns Ok the Code node plays the current diagram", "statement": "When check_code for a Code node returns without an error, the program that the node plays means what its block diagram shows at that moment, and calls for one node never change the diagram or the sound of another.", "quantifier": "all histories of get_block_function, get_code_engine_backend, edits of the diagram and check_code over any number of nodes, all libraries of nodes, any acceptance or rejection by the code generator", "why_tests_cant": "Whether a change is noticed depends on the order of edits, failed checks, and node creations; tests check one edit followed by one check.", "anchors": ["src/global.rs: HxState check_code, get_block_function, get_code_engine_backend", "src/dsp/node_code.rs: Code"]}
{"id": "C85", "title": "The scope shows the signal", "statement": "The points of a scope are the maximum and minimum of consecutive windows of the input signal without a gap, in the order of time, each as long as the time setting says; if a point is shorter than a sample, samples are repeated; a full recording stays until the trigger fires.", "quantifier": "all signals, all sequences of blocks of any length, all triggers and trigger sources, all time settings", "why_tests_cant": "The windows depend on how the time per point and the time per sample add up over thousands of frames and blocks, and on changes in between.", "anchors": ["src/dsp/node_scope.rs: Scope::process", "src/scope_handle.rs: ScopeHandle"]}
{"id": "C86", "title": "Knobs snap to the marks of their scale", "statement": "Rounding the value of a knob (coarse or fine) stays in the range of the parameter, leaves a rounded value as it is, never changes the order of two values, and the rounded knob displays a mark of the scale of its unit (whole ms, tenths, half decibels, octaves, ...) no more than half the distance of two marks away.", "quantifier": "all parameters of all nodes, all values in their range, coarse and fine", "why_tests_cant": "Every parameter has infinitely many values and the scales change their step at several places, where the order or the stability could be lost.", "anchors": ["src/dsp/mod.rs: ParamId::round, macros r_*, module round"]}
{"id": "C87", "title": "The tracker sequencer is heard playing the shown pattern", "statement": "Once edits of a pattern have stopped and had time to arrive, every block of the TSeq node plays the pattern as it is shown: in each frame the six pairs of track and gate outputs are the notes, steps, interpolated values or gates of the six columns in the row at the phase of that frame. The phase comes from the clock input (in the phase mode: its part after the point), or from the clock that is driven by triggers, which a sync trigger restarts. No block makes the node panic.", "quantifier": "every history of pattern edits, updates, blocks and node creations, every column type, mode, clock machine, block length and input signal", "why_tests_cant": "Histories of edits interleaved with audio blocks, phases and random numbers are unbounded; tests sample a few patterns at a few phases.", "anchors": ["src/dsp/node_tseq.rs TSeq::process", "src/dsp/tracker/mod.rs TrackerBackend::get_col_at_phase, check_updates", "src/dsp/tracker/sequencer.rs PatternSequencer"]}
{"id": "C88", "title": "The random walker keeps to its range and its steps", "statement": "Every new target of the RndWk node is in the range between its min and max inputs (limited to 0 to 1, in any order), and no further from the current value than the step and the offset. The output stays in that range, and with a step of 0 it does not depend on the random numbers.", "quantifier": "every sequence of frames, inputs, triggers, random numbers and every slew limiter that moves between its value and its target", "why_tests_cant": "A random walk has infinitely many histories; a test sees one seed.", "anchors": ["src/dsp/node_rndwk.rs RndWk::process"]}
{"id": "C89", "title": "The sine oscillator always ends its block at the asked frequency", "statement": "For every signal at its inputs the sine oscillator computes its block in a bounded number of steps, asks the sine only for phases from 0 up to 1, and its phase is the sum of the frequencies so far divided by the sample rate, plus the phase modulation of the frame.", "quantifier": "every f32 phase modulation, frequency, block length and way of rounding to the nearest f32", "why_tests_cant": "Whether a loop over f32 numbers ends depends on the size of the modulation; tests use small ones.", "anchors": ["src/dsp/node_sin.rs Sin::process"]}
{"id": "C90", "title": "A knob turned in the matrix is heard after the smoothing time", "statement": "After a parameter of a playing node is set through the matrix, the node sees the new value from the end of the smoothing time on, and until the audio thread takes messages again nothing else that is called changes it. A patch that is loaded plays with its own values from the first frame, however many they are.", "quantifier": "every history of matrix calls (placing cells, sync, clear, loading, saving, monitoring, modulation), every interleaving with the audio thread, every block length and smoothing time", "why_tests_cant": "When a value arrives depends on all changes still under way and on the interleaving of both threads.", "anchors": ["src/matrix.rs Matrix::set_param, Matrix::from_repr, Matrix::sync", "src/nodes/node_conf.rs set_param, upload_prog", "src/nodes/node_exec.rs set_param, process_graph_updates, process_param_updates"]}
{"id": "C91", "title": "A test recording is the patch playing the given signal", "statement": "NodeExecutor::test_run_input returns two signals as long as the one it is given. They are what the grid, as it was at the last successful sync, load or clear, computes from the given signal on both input channels, with the values set since: a knob that was turned just before is heard from the end of the smoothing time on, all others at once. Without an Out node there is silence; the only Out node is heard frame by frame, times its volume, on both sides if mono is on; a cable from Inp to Out returns the given signal, times the volumes, without delay, and exactly the given signal with the volumes at their defaults. Several Out nodes are mixed, and the attenuator of Amp only attenuates.", "quantifier": "all histories of calls on the matrix and blocks of audio with room for messages, all behaviours of the other nodes, all lengths of the signal, all smoothing times", "why_tests_cant": "a recording of one patch with one length says nothing about other grids, other histories and other block boundaries", "anchors": ["src/nodes/node_exec.rs: NodeExecutor::test_run_input", "src/dsp/node_inp.rs: Inp::process", "src/dsp/node_out.rs: Out::process", "src/dsp/node_amp.rs: Amp::process", "src/dsp/node_mix3.rs: Mix3::process"]}
{"id": "C92", "title": "The formant oscillator plays the pitch and the formant it is set to", "statement": "With signals of any kind at its inputs FormFM never exceeds the larger of 1 and the value at peak, so it stays within [-1, 1] over the whole range of the knobs. With constant inputs the samples repeat after every whole number of periods of the base frequency. With the formant at a whole multiple of a constant base frequency the output is a cosine at the formant frequency, from phase zero, under an envelope between peak and 1 that starts at one and reaches peak at the place side says. Sweeping the formant makes no jumps. Block boundaries make no difference.", "quantifier": "all sample rates, all signals at the inputs, all lengths, all divisions into blocks", "why_tests_cant": "the phase is carried on over all frames, tests look at a few settings and lengths", "anchors": ["src/dsp/node_formfm.rs: FormFM::process", "src/dsp/mod.rs: d_pit"]}
{"id": "C93", "title": "The simple filter starts afresh with its type", "statement": "From the block on where a type of SFilter is selected, and for as long as it stays selected, the node sounds like a new filter of the named type with empty memory, whatever it has played before; block boundaries make no difference. The filter functions never see a cutoff frequency or a resonance beyond the limits of the filter, nor the Moog filter an input beyond [-1, 1], whatever signals are at the inputs. Every setting gives a signal made from the input.", "quantifier": "all filter functions, all histories of blocks, type settings and signals, all block lengths", "why_tests_cant": "what is left in the shared memory cells depends on all that was played before the switch", "anchors": ["src/dsp/node_sfilter.rs: SFilter::process, process_filter_fun32"]}
{"id": "C94", "title": "The biquad filter follows its parameters and no setting stops it", "statement": "In every block the signal goes through a chain of equal filters, as many as the order says (one for the resonator), whose coefficients belong to parameters within a ten thousandth of those at the start of the block. From a block on that moves a parameter further or selects another type the node sounds like a new chain, until the next such block; block boundaries make no difference. No setting makes the audio thread panic, and the gain input is the gain of the filter.", "quantifier": "all coefficients and filters, all histories of blocks with their settings, parameters and signals", "why_tests_cant": "slow drifts of a parameter accumulate over many blocks, and settings outside of the menu are not tried by tests", "anchors": ["src/dsp/node_biqfilt.rs: BiqFilt::process"]}
{"id": "C95", "title": "The analog filter works with the present parameters and modes", "statement": "In every frame of FVaFilt the selected filter works with the coefficients for the cutoff, resonance, drive and modes of this very frame, clamped to their limits. Block boundaries and what the other filters did make no difference.", "quantifier": "all filters, all histories of blocks with their type and mode settings and signals", "why_tests_cant": "the fault needs a certain order of turning the mode and selecting the filter", "anchors": ["src/dsp/node_fvafilt.rs: FVaFilt::process, on_param_change"]}
{"id": "C96", "title": "Application code runs in its node as it was handed over", "statement": "The newest node of a Rust1x1 instance runs, from its next block on, the code sent to that instance last, from the beginning of that code and in the state its own blocks have brought it to. Code sent before the node exists is what the node starts with. Nodes never share code or state. The code is told the sample rate of the graph, is reset when the node is reset, and survives when the node is made again.", "quantifier": "all histories of sending code, making nodes, running blocks, announcing sample rates and resets, for all instances in any order", "why_tests_cant": "two threads hand over the code through a buffer; the order of sending, making and running is not under the control of a test", "anchors": ["src/dsp/node_rust.rs: Rust1x1, DynamicNode1x1", "src/global.rs: send_dynamic_node1x1, get_dynamic_node1x1_buffer", "src/matrix.rs: Matrix::set_dynamic_node1x1", "src/synth_constructor.rs: SynthConstructor::set_dynamic_node1x1"]}
{"id": "C97", "title": "How the host cuts time into blocks cannot be heard", "statement": "From the same state of the engine, asking for the same number of frames in blocks of any lengths gives the same samples at every output of every node in every frame, also while parameters move, and leaves all nodes in the same state. Two engines that are given the same calls, and between them the same numbers of frames cut differently, stay in step.", "quantifier": "all patches, all gentle histories before, all ways of cutting any number of frames into blocks of 1 to 128 frames", "why_tests_cant": "there are exponentially many ways to cut; tests use one block size", "anchors": ["src/nodes/node_exec.rs: NodeExecutor::process, process_smoothers", "src/util.rs: Smoother", "src/nodes/node_prog.rs: ModOp", "src/dsp/node_biqfilt.rs: BiqFilt::process"]}
{"id": "C98", "title": "Every node of a patch runs in every block", "statement": "However many nodes a patch has, each node of the patch that was uploaded runs once in each block rendered after the audio thread took the patch over.", "quantifier": "all histories of calls, all patches of any number of nodes, all blocks", "why_tests_cant": "the tests use patches of a few nodes; what goes wrong needs more nodes than a byte can count", "anchors": ["src/nodes/node_conf.rs: NodeInstance::as_op, NodeConfigurator::add_prog_node, create_node", "src/nodes/node_prog.rs: NodeProg::append_op"]}
{"id": "C99", "title": "Noise is the sequence of its generator", "statement": "A noise node plays the numbers of its random generator, exactly one in each frame, brought to the range of the mode, attenuated and moved by the offset, whatever the block lengths and mode changes; a reset makes it start over with the first number; bipolar noise stays within the attenuation around the offset and unipolar noise between the offset and the offset plus the attenuation; nodes of different instances have different seeds.", "quantifier": "all histories of blocks of any length, modes, inputs and resets; all generators", "why_tests_cant": "a skipped or repeated number shows only at particular block lengths or after particular histories", "anchors": ["src/dsp/node_noise.rs: Noise::new, reset, process"]}
{"id": "C100", "title": "A delay is dry at one end and bounded", "statement": "With the mix at 0 a delay plays its input unchanged; with the mix at 1 it plays only what came in in earlier frames, and without feedback exactly the input delayed by the time asked for; for every setting of the knobs a bounded input gives a bounded output.", "quantifier": "all histories of blocks, modes, resets and sample rates, all modulations of time, feedback and mix, all delay lines", "why_tests_cant": "loudness builds up over many frames; tests look at some thousand frames at one setting", "anchors": ["src/dsp/node_delay.rs: Delay::process, reset, set_sample_rate"]}
{"id": "C101", "title": "The Ext nodes play the parameters of the host", "statement": "Each output of an ExtA to ExtF node plays its own parameter of its own set of host parameters, followed by its own slew limiter in the slew time asked for, times its own attenuverter; a set that the host leaves out answers like set A; without a host the node is silent; a reset starts the slew over; a slew time in milliseconds lasts that long at every sample rate.", "quantifier": "all histories of blocks with any host, frames, resets and sample rate changes; all slew limiters", "why_tests_cant": "whether a host is there, which of its sets it leaves out and when the rate changes are outside any test", "anchors": ["src/dsp/node_ext.rs: define_ext!, process, reset, set_sample_rate", "src/nodes/node_exec.rs: ExternalParams, set_external_params"]}
{"id": "C102", "title": "Envelopes multiply", "statement": "What an Ad or Adsr plays is its input times the envelope, and envelope and end trigger do not depend on the input; the knob mult stretches all times by 10 or 100 and nothing else; shapes and sustain levels out of range act like the nearest end of the range; the graph of an Ad stays between 0 and 1, rises up to the end of the attack, reaches the peak however coarsely it is drawn, falls and is 0 after the decay; the graph of an Adsr shows the knobs as they are when the drawing begins, whatever was drawn before.", "quantifier": "all histories of blocks, inputs, knob settings, resets and rates; all envelope generators; all grids of points", "why_tests_cant": "the peak falls between grid points for most settings, and a graph function keeps state between pictures", "anchors": ["src/dsp/node_ad.rs: Ad::process, graph_fun", "src/dsp/node_adsr.rs: Adsr::process, graph_fun"]}
{"id": "C103", "title": "What the audio thread replaces is freed elsewhere, once", "statement": "Every program and every setting that the audio thread replaces is freed exactly once and in the order in which it was replaced, by the drop thread and not by the audio thread; dropping the frontend ends the drop thread and returns; when both sides are gone nothing is left unfreed.", "quantifier": "all interleavings of the steps of the audio thread, the drop thread and the dropping of both sides, all queue sizes", "why_tests_cant": "a question of schedules: the drop thread sleeps most of the time and tests see one schedule", "anchors": ["src/nodes/drop_thread.rs: DropThread::new, drop", "src/nodes/node_exec.rs: process_graph_updates", "src/nodes/node_conf.rs: SharedNodeConf::new"]}
{"id": "C104", "title": "Oscillators stay in tune", "statement": "After any history the oscillator of a BOsc or VOsc has turned exactly as far as its frequency input over the sample rate says, added up over all frames since the last reset, whatever waveforms, shapes, distortions and oversampling were selected on the way and however time was cut into blocks; the pulse width is heard with the pulse waveforms only; inputs of VOsc out of range act like the nearest end of the range.", "quantifier": "all histories of blocks, settings, inputs, resets and sample rates (for VOsc from the first sample rate on); all oscillators that advance by frequency over rate", "why_tests_cant": "a drift of the phase accumulates over long histories and around changes of settings", "anchors": ["src/dsp/node_bosc.rs: BOsc::process, set_sample_rate, reset", "src/dsp/node_vosc.rs: VOsc::process, set_sample_rate, reset, OVERSAMPLING"]}
{"id": "C105", "title": "The bowed string is tuned and tame", "statement": "The two parts of the string of a BowStri are together exactly one period of the asked frequency long (20 Hz if it is lower) and each at least a hundredth of it, wherever the bow is; the pitch correction is 0 up to 110 Hz, rises with the frequency and stays below two semitones; a string that is not bowed is silent; however it is bowed, the loudness is bounded by a multiple of the fastest bow velocity, for all forces, positions and frequencies.", "quantifier": "all histories of blocks, inputs, resets and sample rates of at least 2.6 kHz; all delay lines that do not overshoot and string filters with a gain below 1", "why_tests_cant": "a loop with feedback and a nonlinear bow: instability shows only for particular inputs after a long time", "anchors": ["src/dsp/node_bowstri.rs: BowedString::process, set_sample_rate, reset, BowStri::process"]}
{"id": "C106", "title": "Quantizers play selected notes and transpose them", "statement": "In every frame Quant and CQnt play, up to the octave input, a note of the keys selected for that block; the octave input moves the pitch by exactly its value and never fires the trigger; the trigger output depends on the pitches alone, across blocks and changes of keys; resets and sample rates change no pitch; the display shows the last key.", "quantifier": "all histories of blocks, keys, inputs, resets and rates; all quantizers and change detectors", "why_tests_cant": "the octave knob and a change of keys coincide with a change of pitch only in particular histories", "anchors": ["src/dsp/node_quant.rs: Quant::process, reset", "src/dsp/node_cqnt.rs: CQnt::process, reset"]}
{"id": "C107", "title": "LFO, combs and reverb: trigger, silence, mono and mix", "statement": "TsLFO stays in 0 to 1, and from a trigger or a reset on plays the same whatever it played before; periods out of range act like the nearest end of 0.1 ms to 300 s, so it never runs at a frequency that is not positive. A new Comb, AllP or PVerb is silent as long as its inputs are, whatever its settings do. With one input connected PVerb plays as with both connected to that signal; with the mix at 0 it plays its inputs unchanged and with the mix at 1 only the reverb.", "quantifier": "all histories of blocks, inputs, settings, connections, resets and rates; all LFO, line and reverb implementations with the stated properties", "why_tests_cant": "whether an old state leaks through a trigger, a reset or a change of mode depends on what was played before", "anchors": ["src/dsp/node_tslfo.rs: TsLFO::process, reset", "src/dsp/node_comb.rs: Comb::process", "src/dsp/node_allp.rs: AllP::process", "src/dsp/node_pverb.rs: PVerb::process"]}
{"id": "C108", "title": "The labels in the grid tell what is there", "statement": "The label of an edge of a cell is the name of the port assigned to it, and there is one exactly if the cell has a node the engine knows, a port is assigned and the name fits into the buffer. An edge is marked as connected exactly if it makes a connection. Cells with the same label have the same node, and eleven bytes are enough for any cell. A cell moved to a neighbouring position and back is where it was. Iterating over the grid visits every cell exactly once.", "quantifier": "all grids, cells, edges, buffer sizes and sets of known nodes; all grids of at most 256 columns and rows for the marks", "why_tests_cant": "labels depend on all cells of the grid and on ports assigned long ago; tests look at a few cells", "anchors": ["src/matrix.rs: Cell::label, Matrix::edge_label, Matrix::adjacent_edge_has_input, Matrix::for_each", "src/dsp/mod.rs: NodeId::label"]}
{"id": "C109", "title": "Categories list every node once; random nodes are the wanted ones", "statement": "Every node is in exactly one category, a category lists its nodes once each in a fixed order, and paging through a category shows each of them. Asking for some random nodes gives as many as asked; they are wanted ones (nodes with an output, or those that make sense in a patch), any wanted node can come up, and missing ones are Nop, which happens at the latest after a hundred.", "quantifier": "all categories, page sizes, counts, selectors and all random number sources", "why_tests_cant": "random sources cannot be enumerated by tests", "anchors": ["src/dsp/mod.rs: UICategory::get_node_ids, get_rand_node_id"]}
{"id": "C110", "title": "The last free output of a block program is found", "statement": "Looking for the last unconnected output in an area of the block code editor gives an output that no block is connected to, with its name, and none lies further down, nor further to the right in its row; something is found exactly if there is a free output.", "quantifier": "all areas of blocks, of any size and with any blocks in them", "why_tests_cant": "depends on the whole area and on the order of a hash map", "anchors": ["src/wblockdsp/language.rs: BlockArea::find_last_unconnected_output"]}
{"id": "C111", "title": "The status values shown for a node are those it stored last", "statement": "The LED and phase value of a node can be asked for at any time. They are the values the node itself stored last in the audio thread, 0 before it stored any and for nodes that do not exist. Storing them never panics in the audio thread.", "quantifier": "all histories of calls of an engine, with any values stored by any node in any block", "why_tests_cant": "depends on the indices given to nodes over the whole history, and on programs still on their way to the audio thread", "anchors": ["src/nodes/node_conf.rs: led_value_for, phase_value_for", "src/nodes/node_exec.rs: NodeExecutor::process"]}
{"id": "C112", "title": "The audio thread survives whatever the user's thread asks for", "statement": "Whatever the user's thread calls, in whatever order and with whatever arguments, neither taking its messages nor producing a block makes the audio thread panic. Orders may name nodes that do not exist or name them twice, connections may go against the order or to ports that are not there, any number of nodes may exist, and messages may be lost because the queue is full.", "quantifier": "every history of calls of both threads in which no node is created twice, every table of node types, every behaviour of the nodes, every state of the queue", "why_tests_cant": "a panic needs a rare combination: a full queue at the moment a program is uploaded, or a parameter that moves at the moment its node goes away", "anchors": ["src/nodes/node_exec.rs: process_graph_updates, process, process_smoothers", "src/nodes/node_conf.rs: upload_prog, set_param, delete_nodes", "src/nodes/node_prog.rs: append_op, append_edge, assign_outputs"]}
{"id": "C113", "title": "The test node pulses once per press", "statement": "Each time the setting trig of a test node becomes positive, its output tsig carries a pulse of a millisecond and then nothing until the next press. The other outputs follow their inputs.", "quantifier": "every sequence of settings, block lengths, inputs and sample rates, resets anywhere", "why_tests_cant": "the pulse spans blocks of any length, and the failure only shows at the second press", "anchors": ["src/dsp/node_test.rs: process, reset, set_sample_rate", "src/dsp/satom.rs: i, f", "src/dsp/mod.rs: is_in_con, is_out_con"]}
{"id": "C114", "title": "A node's picture shows its present settings", "statement": "The picture a node offers for the user interface is drawn without a panic, shows only the present settings and nothing of what was drawn before, and stays inside its frame.", "quantifier": "every sequence of drawings of every width with every settings, every oscillator", "why_tests_cant": "the drawing keeps an oscillator between calls, so what is drawn could depend on everything drawn before", "anchors": ["src/dsp/node_bosc.rs: graph_fun", "src/dsp/node_vosc.rs: graph_fun", "src/dsp/node_tslfo.rs: graph_fun", "src/dsp/node_test.rs: graph_fun", "src/dsp/mod.rs: GraphAtomData, inp_param"]}
{"id": "C115", "title": "A code node plays the user's code", "statement": "A code node hands the inputs of each frame to the user's code in order and writes what the code gives to its three outputs. New code is taken at the start of the next block and never in the middle of one. Cutting a block in two changes nothing.", "quantifier": "every history of blocks, sent programs, resets and sample rates, every behaviour of the code", "why_tests_cant": "the code is arbitrary, and it may be replaced at any time from another thread", "anchors": ["src/dsp/node_code.rs: Code, process, reset, set_sample_rate"]}
{"id": "C116", "title": "What compiles with the builders is a network", "statement": "Every program of builder calls that compiles makes a network in which every operation names an input, setting or output its node has. Each node is given what was called on it or on a copy of it, in that order. Uploading such a network can fail because of a cycle only.", "quantifier": "every program of builder calls, every node type, every history of uploads", "why_tests_cant": "the claim is about all programs and all methods the macro generates", "anchors": ["src/build.rs: make_node_constructor, ConstructorOp, ConstructorNode, output, input, set, set_mod, build", "src/synth_constructor.rs: upload"]}
{"id": "C117", "title": "An observer shows what is there", "statement": "A user interface that registers as observer of the matrix, reads everything then, and after each call reads again what it was told has changed, always shows the properties, parameter values, modulation amounts, monitored cell and published cells the matrix has. The generation never decreases, and if a call leaves it as it was, none of these has changed, unless the call puts cells on the grid that sync has yet to publish.", "quantifier": "every history of calls of the matrix, every grid, every moment the observer is registered", "why_tests_cant": "notifications interact with silent synchronisation and with the cells placed before", "anchors": ["src/matrix.rs: MatrixObserver, set_observer, sync, clear, from_repr, set_prop, set_param, set_param_modamt, monitor_cell, get_generation"]}
{"id": "C118", "title": "No node hears where a block ends", "statement": "With its settings unchanged, each node gives the same samples and ends in the same state whether the host asks for the frames in one block or in blocks of any lengths, whatever its inputs are in each frame. This holds for noise, delay, envelopes, oscillators, LFO, quantizers, filters, reverb, sample player, random walk, multiplexer, MIDI input, tracker, scope and the test node.", "quantifier": "every state of the node, every sequence of frames with arbitrary inputs, every way of cutting it into blocks", "why_tests_cant": "there are exponentially many ways to cut; nodes keep values per block, draw random numbers and relocate samples at its start", "anchors": ["src/dsp/node_noise.rs: process", "src/dsp/node_delay.rs: process", "src/dsp/node_ad.rs: process", "src/dsp/node_adsr.rs: process", "src/dsp/node_fvafilt.rs: process", "src/dsp/node_sampl.rs: process", "src/dsp/node_tseq.rs: process", "src/dsp/tracker/mod.rs: get_col_at_phase", "src/dsp/tracker/sequencer.rs: PatternSequencer", "src/dsp/node_scope.rs: process", "src/dsp/node_midip.rs: process", "src/dsp/node_midicc.rs: process", "src/dsp/node_biqfilt.rs: process"]}
{"id": "C119", "title": "Every node that plays knows the sample rate", "statement": "A node that is played has been told, as the last thing it was told about it, the sample rate the host has set last, whenever and in whatever order nodes are created, programs are made and sent, messages arrive, and the sample rate is set, also while a node is being created on another thread.", "quantifier": "every interleaving of creating and deleting nodes, new programs, other messages, message polling and changes of the sample rate; every node", "why_tests_cant": "tests set the sample rate once, before anything is played; which nodes hear of a change depends on the program playing in that moment", "anchors": ["src/nodes/node_exec.rs: NodeExecutor::set_sample_rate, process_graph_updates", "src/nodes/node_conf.rs: create_node, delete_nodes, upload_prog, add_prog_node", "src/matrix.rs: create_intermediate_nodes"]}
{"id": "C120", "title": "A view reads the texts of blocks and the palette of types", "statement": "A view that hands over a buffer and reads back as many bytes as the call says gets the label of a block, or the name of the asked input or output, and nothing behind it is changed; a row without port gives nothing. The palette lists each defined block type once with its last definition, numbers the named outputs without gaps, and lists the defined identifiers sorted and once.", "quantifier": "every block, every text in every encoding length, every buffer, every history of definitions", "why_tests_cant": "lengths of texts and buffers are unbounded; labels are typed by users", "anchors": ["src/wblockdsp/language.rs: BlockView for Block, label, input_label, output_label, has_input, has_output, BlockLanguage, define, define_identifier, get_type_list, list_identifiers, get_output_name_at_index, type_output_count"]}
{"id": "C121", "title": "A reset node plays like a new one", "statement": "After a reset a node plays, whatever comes after it, as a newly made node of its kind does that was told the same sample rate: nothing of what happened before the reset can be heard.", "quantifier": "every node kind of the list, every past of blocks, resets and sample rates, every future", "why_tests_cant": "what a node remembers shows only in some pasts and some futures; both are unbounded", "anchors": ["src/dsp/mod.rs: DspNode::reset, Node::reset", "src/dsp/node_*.rs: reset, set_sample_rate, new"]}
{"id": "C122", "title": "What does not lead into a node cannot be heard in it", "statement": "What a node sounds like depends only on the nodes that lead into it, directly or through others, on the connections between them and on their settings. Two engines in which these were treated alike sound the same there, whatever else was created, set, connected, deleted or played in one of them, and however time was cut into blocks.", "quantifier": "all pairs of histories of engine calls, all nodes that work frame by frame, all parts of the patch that nothing else leads into, all cuts", "why_tests_cant": "a leak from one corner of a patch to another shows only for some pairs of histories; both are unbounded", "anchors": ["src/nodes/node_exec.rs: NodeExecutor::process, set_param, process_graph_updates", "src/nodes/node_conf.rs: NodeConfigurator::upload_prog", "src/nodes/node_prog.rs: NodeProg"]}
{"id": "C123", "title": "How a knob moves", "statement": "As long as at most forty parameters move at a time and nodes are not deleted while parameters move, the value of every parameter of every node is known in every frame: when it is set it goes to its new value in steps of equal size, one in every frame, as many as a change takes, from where it was in the last frame played, and stays there; no other call and no cutting of time into blocks has an influence, except that a new program sets the parameters that do not move, and moves the starting point of the next change of all others to their target.", "quantifier": "all histories of engine calls within these bounds, all nodes, all parameters, all frames, any arithmetic of samples", "why_tests_cant": "the pool of smoothers, the list of values to refresh and the exchange of programs interact over unboundedly many calls", "anchors": ["src/nodes/node_exec.rs: NodeExecutor::set_param, process_smoothers, process_graph_updates", "src/util.rs: Smoother", "src/nodes/node_conf.rs: NodeConfigurator::set_param"]}
{"id": "C124", "title": "Numbers and menu places of the directions", "statement": "Every direction has its own number, by which it is found again; numbers beyond the six edges name the centre. In a menu every direction has its own place, on the side where its neighbour lies.", "quantifier": "all directions, all numbers, all columns", "why_tests_cant": "the numbers range over all bytes and the columns over all positions; the tables are never compared to each other", "anchors": ["src/cell_dir.rs: CellDir::from, as_edge, as_menu_pos, as_offs"]}
{"id": "C125", "title": "How a knob moves with f32 numbers", "statement": "With f32 arithmetic a knob that is turned moves in one direction only, close to the straight line from the old value to the new one, without passing the new value, and is exactly at the new value when the smoothing time is over.", "quantifier": "all f32 values and targets, all smoothing times, all samples, all ways to round to the nearest f32", "why_tests_cant": "rounding errors add up over hundreds of samples and depend on both values; a test sees the values it was written for", "anchors": ["src/util.rs: Smoother::set, Smoother::next, Smoother::set_sample_rate"]}
{"id": "C126", "title": "Which row a phase selects with f32 numbers", "statement": "With f32 arithmetic a phase from 0 to 1 selects an existing row of a pattern of at most 256 rows: the one it lies in, up to a small fraction of a row. A later phase never selects an earlier row, every row is selected by some phase, and phase 1 selects the last row.", "quantifier": "all pattern lengths from 1 to 256, all f32 phases from 0 to 1, all ways to round to the nearest f32", "why_tests_cant": "the rounding of the length minus a small constant depends on the length; tests use a few round numbers", "anchors": ["src/dsp/tracker/sequencer.rs: PatternSequencer::col_interpolate_at_phase, col_get_at_phase, col_gate_at_phase"]}
{"id": "C127", "title": "Clipped mapping with f32 numbers", "statement": "With f32 arithmetic a mapping node that is set to clip keeps its output between min and max. For signals and ranges within -1 to 1 the simple one (SMap) is off by at most 2^-21.", "quantifier": "all f32 inputs and ranges, all modes, all ways to round to the nearest f32", "why_tests_cant": "whether the rounding leaves the range depends on the bits of min and max", "anchors": ["src/dsp/node_map.rs: Map::process", "src/dsp/node_smap.rs: SMap::process"]}
{"id": "C128", "title": "NaN at the inputs of clamping nodes", "statement": "A sample that is not a number, at whatever input, does not stop the audio thread in the clipping Map and in the random walker.", "quantifier": "all samples, NaN or not, at all inputs", "why_tests_cant": "a test would have to guess the one input at which NaN reaches the bound of a clamp", "anchors": ["src/dsp/node_map.rs: Map::process", "src/dsp/node_rndwk.rs: RndWk::process"]}
{"id": "C129", "title": "Only what is seen on the grid counts", "statement": "Two grids that show the same patch, the one shifted against the other by any number of rows and an even number of columns, are compiled to the same connections and the same order of the nodes, or are rejected with the same error. Neither the size of the grids nor their histories matter.", "quantifier": "all patches, all shifts, all grid sizes, all histories of calls on either grid", "why_tests_cant": "the ordering reuses its vectors between calls, so that the past could leak into the order; the histories are unbounded", "anchors": ["src/matrix.rs: Matrix::sync, Matrix::check, update_graph_ordering_and_edges", "src/nodes/node_graph_ordering.rs: NodeGraphOrdering::clear, add_node, add_edge, calculate_order"]}
{"id": "C130", "title": "The random walker keeps to its range with f32 numbers", "statement": "With f32 arithmetic a trigger of the random walker never panics, whatever numbers are at its inputs, and its new target lies between min and max.", "quantifier": "all f32 ranges, all steps, offsets, values and random numbers, all ways to round to the nearest f32", "why_tests_cant": "the clamping and the reflection each round several times; whether the target leaves the range or the bounds of a clamp cross depends on the bits", "anchors": ["src/dsp/node_rndwk.rs: RndWk::process"]}
{"id": "C131", "title": "The threads behind the monitored signals", "statement": "However the audio thread, the monitor thread and the calls of the user interleave, a call shows the six signals as they were at one and the same moment, never an earlier one than the call before. When the monitor thread has worked off what was sent, the next call that notices it shows all of it. A call never waits for ever, and dropping the monitor ends the thread and returns.", "quantifier": "all interleavings of the single steps of the three threads, all contents, any number of buffers and calls", "why_tests_cant": "torn or stale pictures and lost wake ups need an unlucky interleaving of a lock and two flags", "anchors": ["src/monitor.rs: Monitor::new", "src/monitor.rs: Monitor::get_minmax_monitor_samples", "src/monitor.rs: Drop for Monitor", "src/monitor.rs: MonitorProcessor::process"]}
{"id": "C132", "title": "What tracker columns play with f32 numbers", "statement": "With f32 arithmetic a value column plays values between 0 and 1, close to the line through the values of its rows; a column with one value in all rows plays exactly this value. A row divided into gates has exactly as many parts as asked for, in order.", "quantifier": "all patterns of 1 to 256 rows, all values, all phases from 0 to 1, all divisions from 1 to 16, all ways to round to the nearest f32", "why_tests_cant": "each sample is the result of seven roundings that depend on the bits of phase and values; a test samples a few phases", "anchors": ["src/dsp/tracker/sequencer.rs: PatternSequencer::col_interpolate_at_phase", "src/dsp/tracker/sequencer.rs: PatternSequencer::col_gate_at_phase"]}
{"id": "C133", "title": "The gate modes of the MIDI note input", "statement": "Pitch and velocity are those of the note played last in every gate mode and across changes of mode and channel. In the mode Trigger the gate is one trigger for each note played, in its frame. In the mode Gate Len it is a gate of the given length, and a note played while the gate is up restarts it after a pause of one frame. The mode MIDI follows the keys. The LED shows the last gate.", "quantifier": "all sequences of blocks with any settings in each, all ordered note events, all trigger and gate generators", "why_tests_cant": "the pause depends on what happened in the frame before, and triggers can be left behind by a change of mode; tests play few notes in one mode", "anchors": ["src/dsp/node_midip.rs: MidiP::process"]}
{"id": "C134", "title": "What the display of a parameter says", "statement": "The text that is shown for a parameter tells its physical value in the right unit, with an error of half the last digit: signals, Hertz, milliseconds, seconds, semitones and cents, decibels. Turning the knob up never lowers the number shown. Cents are below 100 and zero decibels are not shown as minus zero.", "quantifier": "all parameters of all nodes, all values in their range, every rounding to the nearest digit", "why_tests_cant": "the number of digits and the unit change at thresholds, and a value just below one is rounded up to it; a test tries some values", "anchors": ["src/dsp/mod.rs: ParamId::format, f_def!, f_defvlp!, f_freq!, f_ms!, f_lfot!, f_lfoms!, f_det!, f_db!"]}
{"id": "C135", "title": "The names of settings", "statement": "Every value of a setting has a name, different from those of its other values. A number between two values is shown as the nearer one, and values out of the range as unknown. The name says what the node does: the factor of an envelope, the number of inputs of a multiplexer, the MIDI channel listened to.", "quantifier": "all settings of all nodes, all values", "why_tests_cant": "names and node code are kept apart in macros and tables; a test would have to compare all of them", "anchors": ["src/dsp/mod.rs: ParamId::format, setting_min_max", "src/dsp/node_ad.rs: fa_ad_mult!", "src/dsp/node_mux9.rs: fa_mux9_in_cnt!", "src/dsp/node_midicc.rs: fa_midicc_cc!"]}
{"id": "C136", "title": "The monitor shows the watched cell", "statement": "The matrix watches the cell it says it watches: the six signals of the monitor are those at the ports named in that cell, after monitor_cell with a cell whose node plays, and after a sync, also if the ports of the cell or the node in it have been changed. If an empty cell is watched nothing is shown, and nothing is shown before a cell was watched.", "quantifier": "all histories of calls of the matrix, all grids, all cells", "why_tests_cant": "what is shown depends on the order of placing, watching, sync and the messages taken by the audio thread", "anchors": ["src/matrix.rs: Matrix::monitor_cell, remonitor_cell, monitored_cell, sync", "src/nodes/node_conf.rs: monitor", "src/nodes/node_exec.rs: process"]}
{"id": "C137", "title": "The lights of the nodes", "statement": "The LED and the phase that the user interface reads for a node are the numbers that node wrote when it ran last. They do not change between blocks, nor in a block in which the node does not run. A node that does not exist, or a new node that has not run, shows 0. They can be read for every node at any time.", "quantifier": "all histories of calls of the engine and of blocks, all nodes, all executions of the nodes", "why_tests_cant": "the numbers are found by the index of a node, which changes with the history of created and deleted nodes, and blocks may run while messages are on their way", "anchors": ["src/nodes/node_conf.rs: led_value_for, phase_value_for, unique_index_for, delete_nodes", "src/nodes/node_exec.rs: process", "src/dsp/mod.rs: LedPhaseVals"]}
{"id": "C138", "title": "The sine oscillator stays in tune with f32 numbers", "statement": "With f32 numbers the sine oscillator has, after n frames of any frequencies up to half the sample rate, turned as far as the frequencies say, up to n parts in 2^23 of a turn; the sample in a frame is the sine at that place, plus the phase modulation. The oscillator moves in every frame, at every pitch.", "quantifier": "every way of rounding to the nearest f32, all sample rates from 1 Hz on (up to 2 MHz for the last sentence), all sequences of frequencies, all phase modulations between -1 and 1, any number of frames", "why_tests_cant": "rounding errors add up over any number of frames; a test listens to a second", "anchors": ["src/dsp/node_sin.rs: Sin::process"]}
{"id": "C139", "title": "Saving and loading keeps f32 parameters, up to the last digits", "statement": "A parameter that is saved and loaded comes back the same with f32 numbers, exactly if it has no curve, else up to a relative change of 2^-22, or of 2^-15 of the range for the times of delay, allp and comb; and what came back once comes back the same from all further saves and loads.", "quantifier": "every way of rounding to the nearest f32, every parameter that is not a pitch, a gain in decibels or the period of an LFO, every f32 value that is zero or between 2^-60 and 2^50 without its sign", "why_tests_cant": "there are four billion values and as many products; a test picks a few, and most of them come back exactly", "anchors": ["src/nodes/node_conf.rs: dump_param_values, load_dumped_param_values", "src/dsp/mod.rs: norm, denorm, define_lin, define_exp, n_det, d_det"]}
{"id": "C140", "title": "Editing a cell and placing several cells at once", "statement": "A cell carries the node set last, stands where it was put last, and each of its edges shows what was written on it last, or nothing if that edge or the whole cell was cleared since. place_multiple places all cells and succeeds exactly if all their places exist and are free and the new grid is legal; otherwise its error tells the truth and the matrix is as it was.", "quantifier": "every history of calls that edit a cell; every reachable matrix of any size and every list of cells, also with several cells for the same place", "why_tests_cant": "histories and lists of cells have no bound, and the errors depend on what was placed before", "anchors": ["src/matrix.rs: Cell::set_node_id, set_node_id_keep_ios, clear_io_dir, set_io_dir, input, out, with_pos_of, has_dir_set, Matrix::place_multiple, get_copy, adjacent_edge_has_input"]}
{"id": "C141", "title": "What a patch keeps besides its cells", "statement": "get_prop returns what set_prop stored last, or what the patch loaded last contained; nothing after clear. A pattern and a block diagram change only when they are edited or when a patch that contains them is loaded; after loading, the patterns are those of the patch. A code engine stays once it is there.", "quantifier": "every reachable state of a matrix with its engine, every call, every history of calls, every patch (also ones that were never saved by this program)", "why_tests_cant": "a test follows one history; here each call has to leave alone what it is not for, whatever happened before", "anchors": ["src/matrix.rs: Matrix::set_prop, get_prop, clear, from_repr, to_repr, sync, get_pattern_data, get_block_function, has_code_engine", "src/global.rs: NodeGlobalData::get_pattern_data, get_code_engine, get_block_function, has_code_engine"]}
{"id": "C142", "title": "The formant oscillator with f32 numbers", "statement": "In f32 arithmetic, whatever the rounding does, the samples of FormFM stay within [-1, 1] for every side and every peak from 0 to 1, the oscillator stays in tune up to 2^-23 of a period for each frame, and it never gets stuck over the whole range of the base frequency. In every frame the sample is the modulator times the loudness that side and peak ask for, up to 2^-18.", "quantifier": "every list of frames with any frequencies up to half the sample rate, any formant, side and peak, every phase, every rounding to nearest, every sample rate from 1 Hz to 2^100 Hz (2 MHz for not getting stuck)", "why_tests_cant": "rounding errors add up over an unbounded number of frames, and whether one of them takes a sample above 1 depends on the last bit of each input", "anchors": ["src/dsp/node_formfm.rs: FormFM::process"]}
{"id": "C143", "title": "Where knobs lead with f32 numbers", "statement": "With f32 arithmetic the knobs of the times, the factor vs of vosc and the detuning never lead below the lower or above the upper end of their range, lead exactly to the ends at the ends, and to what the curve asks for in between, up to a tiny part of the range. A knob that is turned up never lowers the value.", "quantifier": "every parameter of every node with such a curve, every position of the knob, every rounding to nearest", "why_tests_cant": "there are a thousand million positions of a knob, and the claim hangs on the last bit of each of four roundings", "anchors": ["src/dsp/mod.rs: define_exp!, define_lin!, n_det!, d_det!, ParamId::denorm, d_declick, d_env, d_time, d_ftme, d_timz, d_vps"]}
{"id": "C144", "title": "The sample player stays in tune with f64 numbers", "statement": "A looped recording is read inside of the chosen part in every frame, at the place the sum of all speeds so far leads to. The rounding of the f64 play head is off by at most a fixed tiny part of a sample for each frame played (for 20 seconds of sound less than one sample in a whole day), and the play head never gets stuck. The same holds backwards. The part starts and ends where offset and length say, up to about a sample, and never outside of the recording.", "quantifier": "every length of the part up to 2^50 samples, every ratio of sample rates, every sequence of speeds, every number of frames, every rounding to nearest", "why_tests_cant": "errors add up over hours of playing, and depend on the last bit of three roundings in each frame", "anchors": ["src/dsp/node_sampl.rs: Sampl::next_sample, play"]}
{"id": "C145", "title": "The scope keeps time with f32 numbers", "statement": "While the scope records slowly (a point of the display takes a sample or more), the number of points finished after any number of frames is the one the time setting and the sample rate ask for, up to two points and a four-millionth of the frames and points. So a recording always gets done, also at the longest setting of five minutes, where the added up time is large and the time of a sample small.", "quantifier": "every time setting, every sample rate from 1000 Hz to 1 MHz with points of a sample or more, every number of frames, every rounding to nearest", "why_tests_cant": "the rounding errors of millions of additions add up; a clock that adds a small number to a large one can stop", "anchors": ["src/dsp/node_scope.rs: Scope::process, set_sample_rate"]}
{"id": "C146", "title": "A turned knob glides with f32 numbers", "statement": "A parameter that is turned from one value to another moves on the straight line between them, up to a few last digits, without going back on its way, without a click (also in the frame where it jumps to the target), for 10 ms worked out exactly, and ends exactly on the target. It may pass the target by a last digit before it ends.", "quantifier": "every start value and target from -1 to 1, every number of frames up to 2^20, every whole sample rate up to 1.6 MHz, every rounding to nearest", "why_tests_cant": "the rounding of the step is added up in every frame, for every pair of values", "anchors": ["src/util.rs: Smoother"]}
{"id": "C147", "title": "Played notes are in tune with f32 numbers", "statement": "In every frame the MIDI note input puts out the pitch of the note played last plus the detuning, and a note in a note column of the tracker is compiled to the pitch of its number, both on the same scale (ten octaves to the unit, note 69 at 440 Hz) up to less than two thousandths of a cent. Higher notes have higher pitches. A note of the keyboard and the same note of the tracker may differ in the last digit.", "quantifier": "every MIDI note number, every history of blocks, notes, channels and gate modes, every detuning from -1 to 1, every rounding to nearest", "why_tests_cant": "the history is unbounded, and the rounding differs for every note and detuning", "anchors": ["src/dsp/node_midip.rs: MidiP::process", "src/dsp/tracker/pattern.rs: PatternData::sync_out_data"]}
{"id": "C148", "title": "The bowed string is tuned with f32 numbers", "statement": "The two parts of the string beside the bow together are as long as one period of the frequency, up to a four-millionth of it, wherever the bow is. Neither part vanishes, neither is longer than the string at 20 Hz, and moving the bow to one end never makes the part of this end longer.", "quantifier": "every frequency up to the sample rate, every sample rate from 1000 Hz to 1 MHz, every place of the bow, every rounding to nearest", "why_tests_cant": "each length is the result of five roundings that depend on the bits of frequency and place", "anchors": ["src/dsp/node_bowstri.rs: BowedString::process"]}
{"id": "C149", "title": "The multiplexer divides its range with f32 numbers", "statement": "A select signal from 0 to 1 chooses one of the inputs in use, and the one in whose part of the evenly divided range it lies, up to 0.00002. A rising signal never goes back to an input with a lower number; 0 chooses the first input, 1 the last, and every input is chosen by the middle of its part.", "quantifier": "every number of inputs from 1 to 9, every f32 signal value from 0 to 1, every rounding to nearest", "why_tests_cant": "the index is the whole part of a number with three roundings; at every border of two parts one wrong bit chooses the wrong input", "anchors": ["src/dsp/node_mux9.rs: Mux9::process"]}
{"id": "C150", "title": "Mixer, amplifier and output with f32 numbers", "statement": "The mixer plays the sum of its signals, each times its volume, times the volume of the sum, off by less than -120 dB of full volume. Signals from -1 to 1 with volumes that add up to at most 1 never leave -1 to 1, and a single signal at full volume comes out unchanged. The amplifier multiplies in the same way; with both factors at most 1 nothing becomes louder and the sign stays; at 1 nothing changes, at 0 it is silent. The output plays both channels, or the first one twice, unchanged at volume 1.", "quantifier": "all signals from -1 to 1, all volumes and settings, every rounding to nearest", "why_tests_cant": "up to six roundings add up in each sample; a test compares a few samples, and whether a full mix clips depends on the last digit of the sum", "anchors": ["src/dsp/node_mix3.rs: Mix3::process", "src/dsp/node_amp.rs: Amp::process", "src/dsp/node_out.rs: Out::process"]}
{"id": "C151", "title": "The rates of LFO and oversampled oscillator with f32 numbers", "statement": "TsLFO runs with the frequency that belongs to its period, limited to 0.1 ms to 300 s, up to a relative error of 2^-22; a longer period is never faster. The four steps VOsc makes in a frame with oversampling are together exactly as long as the one it makes without, so that the setting changes no pitch, and that is a frame up to a relative error of 2^-22.", "quantifier": "every period, every sample rate from 1000 to 1000000, every rounding to nearest", "why_tests_cant": "an error in the last digit of a step adds up over the steps; tests compare a few frequencies with a tolerance", "anchors": ["src/dsp/node_tslfo.rs: TsLFO::process", "src/dsp/node_vosc.rs: VOsc::set_sample_rate, VOsc::process"]}
{"id": "C152", "title": "Noise and envelopes with f32 numbers", "statement": "Bipolar noise stays within the offset plus and minus the attenuation, unipolar noise between the offset and the offset plus the attenuation, with the sums rounded once; the ends and the middle of the random numbers give the ends and the middle of the range, and without attenuation only the offset is heard. An attack-decay envelope from 0 to 1 makes no signal louder and keeps its sign; at 1 it passes the signal unchanged, at 0 it is silent.", "quantifier": "all random number generators from 0 to 1 in any state, all attenuations and offsets, all envelopes and signals, every rounding to nearest", "why_tests_cant": "whether a rounding leads out of the range depends on the last digits of a random number", "anchors": ["src/dsp/node_noise.rs: Noise::process", "src/dsp/node_ad.rs: Ad::process"]}
