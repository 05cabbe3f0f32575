# Formal model of HexoDSP in Lean 4

## Approach

Each component of the code is transcribed function by function into small total
functions in `lean/Verif/Model/*.lean`. Every definition cites the file and lines
it models and names its simplifications. Helper lemmas live in
`lean/Verif/Lemmas/*.lean`. The property theorems, with their (small, separate)
specifications and non-vacuity examples, live in `lean/Verif/Props/*.lean`.

Conventions:

* `&mut self` methods return the new state; panics are explicit error values.
* `usize` counters that cannot overflow in practice are `Nat`; fixed width types
  are modelled where the property depends on the wrap-around or clamp.
* `f32` data that is only moved around is an arbitrary type; `f32` arithmetic that
  matters for a property is modelled by exact rational or real arithmetic
  (this is an idealisation, named at each definition).
* External crates (ringbuf, triple_buffer, serde_json, synfx_dsp, std) are modelled
  by their documented behaviour, or enter as parameters.

## Plan per property

* **C01 Hex neighbour step is undone by the flipped direction** — Model `Verif.Model.CellDir` (Int coordinates). Case split on the direction and the column parity, `omega`.
* **C02 CellDir::are_adjacent is exact and antisymmetric** — Same model; `areAdjacent` is unfolded and compared with the offset relation for all positions.
* **C03 CellDir::path_from_to leads to the target** — Model with exact integer distances (f32 is exact on these values). Strict decrease of |dx|+|dy| by a greedy step, induction over the step budget. Negation witness for far pairs, `_partial` for pairs with squared distance below the cut off.
* **C04 Execution order is topological** — Model `Verif.Model.GraphOrdering` (Kahn's algorithm with queue and in-degree vector). Loop invariant relating in-degrees, emitted and queued nodes.
* **C05 Ordering succeeds exactly for acyclic graphs** — Same invariant, plus: the un-emitted nodes each have an un-emitted predecessor, hence a cycle exists (pigeon hole); conversely a topological order excludes cycles.
* **C06 has_path answers are truthful** — DFS with visited list as fuel-bounded recursion; invariant 'everything on the stack is reachable', closure of the visited set. Negation: diamond answers None.
* **C07 Matrix::place and Matrix::get behave like a 2D array** — Model `Verif.Model.Matrix` (column major list of cells). Index arithmetic and list update lemmas, induction over histories.
* **C08 A rejected matrix change leaves the grid as it was** — Closures are sequences of matrix operations; the save/restore pair is modelled literally.
* **C09 Matrix::check accepts exactly the legal grids** — check modelled function by function on top of C04/C05.
* **C10 Connections are exactly the facing assigned ports** — The nested loops as list binds; membership characterisation.
* **C11 Node port regions are disjoint and complete** — Prefix sums over the list of instances.
* **C12 A processed block computes the data flow of the graph** — Buffers as store of pointers, node behaviour an arbitrary function; induction over the program order.
* **C13 Modulated inputs receive parameter plus amount times signal** — Same store model with an abstract commutative arithmetic.
* **C14 Connectedness flags tell the truth** — Bit masks as `BitVec 64`; induction over the appended edges.
* **C15 Parameter updates reach the audio thread** — Executor parameter pool (40 smoothers); induction over blocks; negation witnesses for the 41st update and for deleting or exchanging the patch while a parameter moves; `_partial` for the histories that avoid these.
* **C16 Parameter smoothing is monotone and ends exactly on the target** — Smoother over the rationals.
* **C17 Parameter values survive graph rebuilds** — NodeConfigurator maps as association functions; induction over operations.
* **C18 Patch representation round trip** — Model of the whole `Matrix`: grid, engine, properties, monitored cell, trackers and block functions, with all its calls. Invariant over histories (`Inv`); saving and loading are followed stage by stage (clear, parameters, atoms, cells, patterns, block functions, sync) through association lists with arbitrary iteration order.
* **C19 Serialized patch round trip** — Documents are trees; piece by piece inverse, with the name and index tables of the nodes (C43); sorting permutes.
* **C20 Saving a patch is crash safe** — File system with volatile and durable state, system calls as single steps that may fail or stop half way; invariant over all steps.
* **C21 Monitor buffers are conserved** — Three threads as an interleaving of atomic steps; invariant: every buffer is in exactly one place.
* **C22 Monitor min/max points are the true extremes of their window** — Same machine with a log of all samples; invariant: the ring of points is the windows of the stream.
* **C23 MIDI events are delivered in the right block at the right offset** — Windowing state machine; induction over events and blocks.
* **C24 Nodes see each MIDI event of a block exactly once, at its frame** — Pointer over the event slice; induction over frames.
* **C25 MidiP gate follows the held note** — Per frame state machine; induction over frames; negation witness.
* **C26 MidiCC outputs the latest controller value** — Per frame state machine; induction over events.
* **C27 Visual sampling filter reports current or last extremes** — Ring buffer of ten samples; refinement to 'last ten samples'.
* **C28 LED and output feedback display values** — Map of filters with toggling recalc bit, on top of C27.
* **C29 Feedback reader sees the writer's signal after the fixed delay** — Ring buffer with two pointers; closed form for n-th read; negation witnesses.
* **C30 Scope buffer accesses stay in range and return the last write** — Index arithmetic; buffer as function update.
* **C31 Tracker cell values stay within 12 bit** — Int model of the i16/u16 arithmetic with bounds.
* **C32 Tracker pattern representation round trip** — Pattern state as record; functional round trip.
* **C33 Tracker edits arrive at the audio thread** — Bounded queue model of the column updates; invariant over interleavings; negation witness.
* **C34 Pattern columns compile to the documented signal** — The column compile loops as recursive functions; specification by 'last set row at or above'.
* **C35 Sequencer phase lookup selects a valid row** — Rational arithmetic model of the phase lookup.
* **C36 Chain builder lays out a connected chain** — Model of the builder calls and of `place` over the matrix model; the positions are the `walk` of C02/C03, in centre coordinates; the wires are those of C07.
* **C37 SynthConstructor executes nodes after their sources** — Model of `walk_upload`, `upload`, `update_params` and `clear` over the engine world and the graph ordering; what was read since the last clear is a list of visits, and the node configurations are shown to be its summary. The order comes from the C05 theorems.
* **C38 Blocks in a block area never overlap** — Areas are finite maps from slots to blocks and from slots to origins; invariant (blocks apart, origin map exact) over all calls.
* **C39 Failed block operations change nothing visible** — Case analysis of every call; the block put back after a failed move gives the same maps.
* **C40 Block area nesting stays a tree** — A rank on areas grows from an area to the areas of its blocks; invariant over all calls. Negations by kernel evaluated histories.
* **C41 Block ids are unique** — All ids of all areas are different and at most the counter; relation between earlier and later states.
* **C42 Block program snapshots round trip** — Documents are trees (Verif/Model/Json.lean); field by field inverse, the map is rebuilt by insertion.
* **C43 Node and parameter names identify uniquely** — The node table is transcribed by a script; a decidable condition on rows is evaluated by the kernel for all rows, lookups are proved for any row with this condition.
* **C44 Normalisation is inverse to denormalisation** — Curves over the reals of Mathlib; monotonicity and inverse per shape, then for all rows of the table.
* **C45 Sample cache returns one consistent buffer per path** — Case analysis of one call; induction over the history of calls, with the file system given anew for each call.
* **C46 Log messages arrive in order and unmixed** — Small steps of threads and reader; invariant: buffer and ring buffer hold the messages not yet delivered, each ended by 0xFF, which no UTF-8 text contains.
* **C47 Mux9 always selects one of the configured inputs** — State machine of the index; induction over triggers.
* **C48 Clipped mapping stays within the output range** — Rational arithmetic.
* **C49 Free neighbour search returns usable neighbours** — Matrix model; exhaustive direction list.
* **C50 Unused instance allocation never hands out an instance in use** — Set of allocated ids; loop with bound.
* **C51 Exchanged node programs never share or double free buffers** — Token model of the buffers.
* **C52 Graph messages are applied in order** — Bounded FIFO queue; refinement.
* **C53 Output feedback shows the last sample of the block** — Same refinement as C12; the triple buffer is simplified to its last published value.
* **C54 The monitor shows the monitored ports** — Same refinement as C12, with the monitored indices as part of the invariant.
* **C55 Injected MIDI events are played in order** — Model of feed_midi_events_from with its injection buffer; negation by a hanging note.
* **C56 Inputs beyond the mapped range are clipped to its nearer end** — Same model as C48; negation by computation.
* **C57 The text shown for a tracker cell is that of its value** — Model of the text cache of PatternData; induction over histories; negation by computation.
* **C58 A tracker view sees every change** — Same model; case analysis over all edits.
* **C59 Gate cells mean probability, ratchets and length** — col_gate_at_phase is modelled with the random generator as an arbitrary function; digits by bit lemmas, position by floor.
* **C60 A random gate is drawn anew each time its row is played** — Induction over the list of phases with the count of draws; negation for all patterns with a single random row.
* **C61 Node information and ids agree on names** — Same table, the lists of names of NodeInfo.
* **C62 Physical values outside of the range of a parameter** — Same curves, absolute value outside of the range.
* **C63 Default values lie within the range of their parameter** — Same table and curves, bounds of logarithms by integer powers.
* **C64 Block areas are as large as their content** — The two loops of recalculate_area_sizes with an invariant each: stack of areas seen once, then sizes right for all areas whose queue entries are done.
* **C65 Chains of blocks are taken and moved as a whole** — The work list of chain_at computes the reflexive transitive closure of adjacency of ports; lookups after remove, shift and fit. Where the chain goes: the offsets tried are exactly those of the specification, and the test for space is the specification of room (Spec/ChainMove.lean).
* **C66 Block program calls return** — Bounds for the iterations of every loop from the rank and from the number of blocks.
* **C67 Successful block calls do exactly what they say** — Case analysis of every call; the blocks of all areas afterwards are given as a function of the slot.
* **C68 Loading a snapshot brings back the program** — The list of snapshots only grows; loading gives the areas of the snapshot with sizes recalculated.
* **C69 Changes of a block program are noticed** — Case analysis of every call. Negation by a kernel evaluated history.
* **C70 Reading any document returns** — Case analysis of every piece of the reader.
* **C71 Saving a patch is deterministic** — Two sorted lists with different keys that are permutations of each other are equal.
* **C72 What a loaded sample contains** — Index calculation for step_by and take.
* **C73 Nodes and parameters of a placed chain** — The instance numbers given out in the loop are computed in closed form; values by the last call that sets them.
* **C74 An uploaded network is what is played** — Histories are followed by the reference machine of C12; the sync is shown to be legal; what it plays is computed from the visits.
* **C75 update_params reports whether it made a new program** — `update_params` that returns false makes only set calls that do not toggle a modulation amount; the reference machine keeps its program.
* **C76 The matrix plays its grid** — Every call of the matrix is a list of calls of the engine; the reference machine of C12 follows them; `Plays` (order, wires and tables of what is in the queue or running are those of the grid) holds after an upload and is kept by the other calls; the block theorem of C12 then gives the data flow.
* **C77 A loaded patch plays like the one that was saved** — The loaded grid has the same nodes and wires (C18); C76 applies to the load.
* **C78 sync and clear do not panic** — The panics of the graph ordering (C09) and of building the program (C11) are excluded by the stated limits.
* **C79 Sample playback follows the play head** — Model/Sampl.lean models node_sampl.rs over the rationals with an arbitrary interpolation function. The cached start and length are proved equal to the part of the specification (Lemmas/Sampl.lean), then the phase is proved congruent to the sum of the speeds modulo the length of the part by induction over the frames.
* **C80 Declicking is safe and smooth** — Same model; the attenuation is bounded by one, the fade is a contraction, and the phase stays within one sample of the part for slow playback.
* **C81 Blocks keep the ports of their type** — invariant over all calls of World.step: blocks conform to their type (Lemmas/BlockKin.lean); shifting permutes a padded list of ports.
* **C82 The compiled block program does what the diagram means** — Spec/BlockRun.lean defines the meaning of a diagram directly on its blocks and the meaning of the compiled program. generate_tree is related to an ideal tree by a homomorphism (Lemmas/BlockTree*.lean), and compiling that tree is simulated step by step: invariants say which blocks were compiled, which variables keep their outputs and which wires were used (Lemmas/BlockSim*.lean). More fuel never changes the result (Lemmas/BlockFuel.lean). Counterexamples are evaluated by the kernel.
* **C83 Every node of a block diagram is called exactly once per evaluation** — an invariant of the specified run (Lemmas/BlockOnce.lean): a block that ran was called once, its sources ran, and every block is upstream of an effect; carried to the program by C82.
* **C84 After check_code returns Ok the Code node plays the current diagram** — the state keeps for every node the generation of the diagram at the last check, the diagram, and the programs sent to its connections; an invariant over all calls (Lemmas/Code.lean) relates the program played to the world the diagram had at the last check, C82 gives its meaning. The code generator is an arbitrary predicate.
* **C85 The scope shows the signal** — process per frame over the rationals, the trigger an arbitrary machine; an invariant over frames (Lemmas/ScopeNode.lean) with the cut points of the windows as ghost state; for constant settings the frame time is the number of samples since the start times the sample time minus the points times the time of a point.
* **C86 Knobs snap to the marks of their scale** — each rounding is a monotone idempotent rounding of displayed values, spliced from roundings to multiples with common borders, conjugated with the curves of C44 (Lemmas/Rounding.lean); the table is checked by the kernel.
* **C87 The tracker sequencer is heard playing the shown pattern** — The TSeq node is modelled on top of the tracker (C33), the sequencer (C35) and the gates (C59); the machines of synfx_dsp are arbitrary. Proved by erasing the blocks of a history to polls of the tracker and a lemma for each column type; the negations are found for the first phase of a row and for empty blocks.
* **C88 The random walker keeps to its range and its steps** — The node is modelled frame by frame with an arbitrary slew limiter, trigger and random generator. Invariant: value and target are in the range. The negations are concrete frames.
* **C89 The sine oscillator always ends its block at the asked frequency** — The loop over the phase is modelled with fuel, over the rationals with a rounding after each f32 operation. The set of f32 numbers is defined; below -2^25 its numbers are at least 4 apart, so adding 1 rounds back, and from -2^24 on every round moves by at least 1/2.
* **C90 A knob turned in the matrix is heard after the smoothing time** — A small clock over matrix calls (Spec/PatchTimed.lean) says when a changed input has arrived. It is shown to agree with the clock of C15 along every history, through clearing, loading and syncing; then the theorems of C15 apply.
* **C91 A test recording is the patch playing the given signal** — Model of the nodes that touch the sound card and of the loop of `test_run_input` over the engine model (`Model/IoNodes.lean`). `Heard` in `Spec/IoNodes.lean` says what a recording of a grid is. Induction over the blocks with C76 (the grid plays) and C90 (when a knob is heard) for each. Concrete patches are run in the kernel.
* **C92 The formant oscillator plays the pitch and the formant it is set to** — Model over the reals (`Model/FormFM.lean`). The phase in closed form by induction over the frames; the modulator is a convex combination of cosines, the carrier lies between one and peak.
* **C93 The simple filter starts afresh with its type** — Model with arbitrary filter functions (`Model/SFilter.lean`); `Spec/SFilter.lean` lists the filters by their names and says what a filter with memory answers to a signal. Induction over the blocks.
* **C94 The biquad filter follows its parameters and no setting stops it** — Model with arbitrary filters (`Model/BiqFilt.lean`); the specification sends the whole signal through one filter after the other. Invariant: the four filters have the coefficients of a block played before that is near the last one.
* **C95 The analog filter works with the present parameters and modes** — Model with arbitrary filters (`Model/FVaFilt.lean`); the ideal filter of `Spec/FVaFilt.lean` computes all coefficients anew in every frame. Simulation frame by frame; the lost mode is a run in the kernel.
* **C96 Application code runs in its node as it was handed over** — Model of the handles and buffers shared by the two threads (`Model/RustNode.lean`); the code of the application is an arbitrary machine (`Lang`). `Spec/RustNode.lean` follows what each node received from the history alone. Invariant `Sync` between the two, induction over the events.
* **C97 How the host cuts time into blocks cannot be heard** — `Spec/Cut.lean` plays a patch frame by frame without blocks (`Sounds`). Each block of the engine is a stretch of it (from the data flow theorem C12 and the course of the smoothers), stretches compose, and the solution is unique by induction over time and the order of the nodes. For whole histories (`Spec/Twin.lean`) a bisimulation: two engines equal but for the leftovers of old blocks stay so under every call.
* **C98 Every node of a patch runs in every block** — Invariant over all histories: the operations of every program, running or on its way, have different indices below 256. The operations of a new program are found by a fold over the order that keeps the first node of each index modulo 256. `Spec/Many.lean`: the nodes in the order of creation, from the calls alone.
* **C99 Noise is the sequence of its generator** — `Model/Noise.lean` over an arbitrary generator; `Spec/Noise.lean` counts the numbers used. Induction over the frames and the events.
* **C100 A delay is dry at one end and bounded** — `Model/Delay.lean` over arbitrary delay lines, clocks and mixers. Induction over frames and events; for the bound the invariant that the line holds nothing louder than M/(1-gq).
* **C101 The Ext nodes play the parameters of the host** — `Model/ExtParam.lean` over an arbitrary slew limiter and host. Induction over frames and events; counterexamples by evaluation.
* **C102 Envelopes multiply** — `Model/Env.lean` over arbitrary envelope generators. Induction over frames and events for the nodes; case analysis and order reasoning over ℚ for the graphs.
* **C103 What the audio thread replaces is freed elsewhere, once** — `Model/DropThread.lean`: the steps of the threads interleaved in any order over a bounded queue. Invariants and permutations by induction over the history; a measure for termination.
* **C104 Oscillators stay in tune** — `Model/Osc.lean` over arbitrary oscillators. Induction over frames and events, with the fractional part of the sum of frequency over rate as the invariant.
* **C105 The bowed string is tuned and tame** — `Model/BowStri.lean` over arbitrary delay lines and filters. The bow scatters two waves with weights c and 1-c, c from 0.01 to 0.98; from this an invariant on the levels of both delay lines, by induction over frames and events.
* **C106 Quantizers play selected notes and transpose them** — `Model/Quant.lean`: both nodes as one model over arbitrary quantizers. Induction over frames and events; interval reasoning for the shown key.
* **C107 LFO, combs and reverb: trigger, silence, mono and mix** — `Model/Reverb.lean`: the four nodes over arbitrary external parts. Induction over frames and events; the trigger and reset theorems compare two nodes with different pasts.
* **C108 The labels in the grid tell what is there** — `Model/Label.lean`: the label functions on the grid model of C01. Strings by their UTF-8 length; marks related to the wires the grid makes (C17).
* **C109 Categories list every node once; random nodes are the wanted ones** — `Model/NodeList.lean`: lists over the node table of C44. Induction over the draws.
* **C110 The last free output of a block program is found** — `Model/FreeOutput.lean` on the block model of C18: the fold over the blocks keeps the maximum in the order of the slots, so the order of the hash map does not matter.
* **C111 The status values shown for a node are those it stored last** — `Model/Status.lean`: the table of 512 cells beside the engine model of C12. Histories (`Lit`) carry a record of what each node stored last; the invariant relates cells to the nodes in the order of creation.
* **C112 The audio thread survives whatever the user's thread asks for** — The invariant is that all indices in the running program and in every program in the queue are in range (Lemmas/Robust.lean, from buildProg for arbitrary orders and connections), that the inputs of its operations are set, and that the indices of the settings in the configurator fit the program that will run when the queue has been taken. The last part is lost exactly when an upload is refused, which gives the negation. The reasons for a panic of a block are read off the code of one block.
* **C113 The test node pulses once per press** — The node is modelled frame by frame with its trigger state; induction over blocks and frames. The full statement is refuted by a concrete run.
* **C114 A node's picture shows its present settings** — graph_fun returns a closure with an oscillator in it; a sequence of pictures is a fold over that state. The first point resets the oscillator, so the state after it is independent of the past.
* **C115 A code node plays the user's code** — The backend is an arbitrary state machine with a queue of programs; a block takes the queue and runs the machine. The k-th frame is computed from the state after k frames by induction over the block; cutting by an append lemma of the loop.
* **C116 What compiles with the builders is a network** — The lists of operations behind the builders are a heap. Invariant over the calls: every list belongs to a node that was made and names only what its row has. The upload theorem follows from the analysis of upload for typed networks (C37).
* **C117 An observer shows what is there** — The calls of the full matrix model are repeated with the notes given to the observer. One step theorem per call says which part of a view stays right; induction over histories. The generation is compared before and after each call.
* **C118 No node hears where a block ends** — Spec/Cutting.lean says what a machine on blocks, a cut and seamless are. A machine is seamless if a block splits at every frame (Lemmas/Cutting.lean). For each node the loop over the frames splits; what is done before the loop is shown to do nothing the second time (keys, thresholds, coefficients, position in the sample). For the MIDI nodes the events of a block are located in its parts. Two concrete histories of a tracker with two gate columns show where it fails.
* **C119 Every node that plays knows the sample rate** — Model/Rate.lean has both threads: nodes numbered in the order of creation, programs as the nodes they hold, the message queue, what each node was told. Invariant: nodes in programs are created; a node that attends every change knows the rate. Four concrete histories show where it fails.
* **C120 A view reads the texts of blocks and the palette of types** — Model/BlockView.lean models the buffered writer of std over the slice of the caller and the palette as a map. The texts that are read back are characterised exactly; the palette by induction over the history of definitions.
* **C121 A reset node plays like a new one** — Model/Reset.lean puts the models of the nodes together with their set_sample_rate and reset. Spec/Reset.lean says what forgetting is, for any node; a bisimulation lemma proves it, and the counterexamples are concrete histories.
* **C122 What does not lead into a node cannot be heard in it** — Spec/Isolate.lean says when two patches have a part in common and when two histories treat it alike. The proof goes along the order of the nodes and from frame to frame, on the frame by frame semantics of C97 with the parameters of C123. The counterexamples are concrete histories.
* **C123 How a knob moves** — Spec/Ride.lean is a machine that knows the value of each parameter in each frame to come, without smoothers. An invariant connects it with the pool of smoothers and the parameter list of the program, and is carried through messages, blocks and changes of the slope.
* **C124 Numbers and menu places of the directions** — The tables are in Model/CellDir.lean; by cases.
* **C125 How a knob moves with f32 numbers** — Model/Smoother.lean is generic in the numbers; Spec/Float.lean gives the numbers that round after each operation; induction over the samples.
* **C126 Which row a phase selects with f32 numbers** — Model/FloatNodes.lean: the lookup with rounding; the error of each rounding is bounded (Lemmas/Float.lean).
* **C127 Clipped mapping with f32 numbers** — Model/FloatNodes.lean: the frames with rounding; bounds on the error, and a witness.
* **C128 NaN at the inputs of clamping nodes** — Model/FloatNodes.lean: samples that may be NaN and a clamp that panics; by cases.
* **C129 Only what is seen on the grid counts** — Spec/Moved.lean: what is seen on a grid. Two orderings that agree on the slots in use go through add_node, add_edge and calculate_order in step (Lemmas/Moved.lean); the scan of the grid is a fold over the used places, which are shifted.
* **C130 The random walker keeps to its range with f32 numbers** — Model/FloatNodes.lean: the target with rounding; the errors of the roundings are less than the margin of one percent the code leaves.
* **C131 The threads behind the monitored signals** — Model/MonitorThread.lean: the two threads as program counters, every access to the lock, the flags and a picture is a step. An invariant with three prefixes of the sent buffers (of the user, shared, processed) is kept by every step.
* **C132 What tracker columns play with f32 numbers** — Model/FloatSeq.lean: the columns with rounding. The line is Lipschitz; the gaps of f32 around 1 and below whole numbers up to 16 exclude that a rounding leaves the range or the row.
* **C133 The gate modes of the MIDI note input** — Model/MidiGate.lean: the whole of process, settings per block, the generators of synfx_dsp as arbitrary machines. Induction over the frames, and over the events of a frame from the end (gate_len_exact).
* **C134 What the display of a parameter says** — Model/Format.lean: the format macros over the reals, std::fmt as rounding to a nearest digit. Spec/Format.lean reads texts back. Case analysis by curve.
* **C135 The names of settings** — Model/SettingNames.lean: the macros fa_* and the table. The table is checked by the kernel row by row, the rest follows for all values. Props/ShownModes.lean: what a node does if its mode is shown as a name, against the models of the nodes.
* **C136 The monitor shows the watched cell** — Model/Patch.lean, Model/NodeConf.lean, Model/NodeExec.lean. Spec/Monitored.lean says what a block shows of a cell. Lemmas/Monitored.lean follows the messages of sync; then C54 on the engine below.
* **C137 The lights of the nodes** — Model/Leds.lean adds the 512 shared floats to Model/Engine.lean; a node says in its run what it writes. Spec/Leds.lean: what a node has shown last in a history. Lemmas/Leds.lean: the operations of the program have different indices, which are those the configurator knows as long as no clear is on its way (by C44 and the simulation behind it).
* **C138 The sine oscillator stays in tune with f32 numbers** — Model/SinNode.lean with an arbitrary rounding to the nearest f32 (Spec/SinNode.lean); Spec/SinFloat.lean: the distance on the circle. Induction over the frames with an error of 2^-23 in each: the inverse sample rate, the product and the sum are rounded, fract is exact.
* **C139 Saving and loading keeps f32 parameters, up to the last digits** — Model/NormFloat.lean: the curves that need only basic operations and the square root, with a rounding after each operation. The error of each rounding is at most 2^-24 of the number. settles_partial: what came back is nearest to y/c, so the next product is at least as near as y, and an odd number with more than 24 digits is no f32, so there is no tie.
* **C140 Editing a cell and placing several cells at once** — Model/CellEdit.lean and Model/Matrix.lean. A cell on paper (Sheet) is a node, a place and six edges; each call is one change of the sheet. place_multiple: induction over the list; either some cell does not fit (Fit fails) and the first one that does not is named, or the grid is the old one with the cells written over it and the answer is that of check (C09).
* **C141 What a patch keeps besides its cells** — Model/Patch.lean. A small table says what each call does to a property, a pattern and a diagram (Spec/PatchKeep.lean); every call of the matrix is shown to do that, using what clear, load and sync leave (Lemmas/PatchLoad, PatchWay).
* **C142 The formant oscillator with f32 numbers** — Model/FormFMFloat.lean: the frame of FormFM with a rounding after each operation (any rounding to nearest). The triangle: rounding is monotone, so the smaller of the two quotients is at most 1. The smooth step: above 1/2 the factor 3 - 2b is exact and the square is off by at most 2^-25, so the product rounds to at most 1. The phase: the step of C138.
* **C143 Where knobs lead with f32 numbers** — Model/NormFloat.lean. Curves from zero: a product and a square, each rounded, and rounding is monotone. Curves that start above zero: near the lower end the factor 1 - x*x rounds to 1 or the other summand outweighs its error; near the upper end the gap between f32 numbers below 1 is worth more than the rounding of the product. The counterexample was found by running through all positions outside of Lean, and is checked by bounding each rounding.
* **C144 The sample player stays in tune with f64 numbers** — Model/SamplFloat.lean. Index and fraction of the play head are exact: they are a multiple of the last place of an f64 and not larger. Only the step and the sum are rounded; the errors are added up by induction over the frames.
* **C145 The scope keeps time with f32 numbers** — Model/ScopeClock.lean. Points times their length plus the time in the present point is the time played, up to a rounding error of at most a fixed part of a point in each frame; by induction over the frames. The settings are rounded three times more.
* **C146 A turned knob glides with f32 numbers** — Model/Smoother.lean with the arithmetic of Model/Rounded.lean (rounding after each operation). The error of the step and of the sums is added up by induction over the frames; monotone, as rounding is.
* **C147 Played notes are in tune with f32 numbers** — Model/MidiGate.lean with the arithmetic of Model/Rounded.lean, after notes_any_mode (C133), and Model/NoteFloat.lean. The error of each operation by the size of its result.
* **C148 The bowed string is tuned with f32 numbers** — Model/BowStriFloat.lean. Each rounding changes its number by a relative 2^-24; three in a row for each part. Order is kept as rounding is monotone.
* **C149 The multiplexer divides its range with f32 numbers** — Model/MuxFloat.lean. The number that is rounded down is off by at most a millionth for each input; the 0.00001 the code takes off is larger. Order is kept as rounding is monotone.
* **C150 Mixer, amplifier and output with f32 numbers** — Model/MixFloat.lean. The errors of the roundings, by the size of what is rounded, are added up. Full scale: the first sum is at most 2^-25 too large, and what is at most 1 + 2^-25 is rounded to at most 1.
* **C151 The rates of LFO and oversampled oscillator with f32 numbers** — Model/RateFloat.lean. Relative errors of the roundings add up; a multiplication by four only changes the exponent, so it is exact.
* **C152 Noise and envelopes with f32 numbers** — Model/NoiseFloat.lean. A product with a factor of at most 1 is rounded to at most the other factor, as that is an f32 number; sums by monotonicity of rounding.

## What the world outside may do

The engine model (`Model/Engine.lean`) runs `process` block by block with an arbitrary function per node and an arbitrary state `st` behind
it (the state of all nodes, the audio host, the shared buffers). In every history of the specifications (`Ran`, `Follows`, `Reach`, `Since`,
`Timely`, `Between`, `Traced`) there is a step `outside` that replaces this state by any other state between two calls: host input, MIDI,
other threads and other users of shared data are covered by it. Panics of the frontend, of the audio thread, and calls that do not return end
the history; theorems about "never panics" say so separately.

## Findings

Where the English property is false of the code, the file has a theorem of the negation with a concrete witness, and a theorem with the
suffix `_partial` for the part that holds; the note of the property in MANIFEST.json names both.

## Trusted base

* Lean 4.33.0's kernel. No axioms of our own, no `sorry`, no `native_decide`, no `bv_decide`.
* The faithfulness of the transcription (no code is executed here): the definitions in `lean/Verif/Model` against the cited lines.
* The statements: `lean/Verif/Spec` and the theorems in `lean/Verif/Props`. `lean/Verif/Lemmas` needs no trust.
* The idealisations, each named at its definition:
  * `f32`/`f64` arithmetic is exact (rationals or reals), or an arbitrary type with arbitrary operations where the property does not depend
    on them. C89, C125, C126, C127, C130, C132, C138, C139, C142, C143, C145, C146, C147, C148, C149, C150, C151 and C152 do model the rounding of `f32`: any rounding to a nearest `f32` after each operation; C144 that of `f64`. C128
    models NaN. Elsewhere rounding errors, NaN and infinities are not modelled, except where a definition says so.
  * `usize` counters are `Nat` unless the property depends on the wrap-around; memory never runs out.
  * `HashMap` and `HashSet` iterate in an arbitrary order, which is a parameter of the theorem.
  * `ringbuf`: a bounded FIFO queue with atomic `push`/`pop`. `triple_buffer`: the reader gets the last published value. `serde_json`: documents are
    trees, printing and parsing are inverse to each other. `hound`: a header and a list of samples. `synfx_dsp`: oscillators, triggers,
    quantizers and random generators are arbitrary machines, contracts that are used are hypotheses of the theorem. `synfx-dsp-jit`: see
    `Model/Code.lean`. `std::fs`: POSIX files with crashes, see `Model/Save.lean`.
  * Threads interleave at the atomic operations of the queues and atomics; the memory model is sequentially consistent.
* Not modelled: the graphical frontends, `synfx_dsp` itself, and the
  lines of the files that are missing from the list below.

### Axioms

`#print axioms` on every theorem that MANIFEST.json lists:

* `Classical.choice`, `Quot.sound`, `propext`: all 708 theorems that are not listed below.
* `Quot.sound`, `propext`: `BlockProps.instanciate_places`, `BlockProps.instanciate_succeeds`, `BlockViewProps.areas_seen`, `BlockViewProps.huge_text_lost`, `BlockViewProps.long_text_panics`, `BlockViewProps.rest_kept`, `BlockViewProps.text_read_iff_partial`, `CellDirProps.edge_number_centre`, `CellDirProps.path_length_le`, `CellEditProps.copy_exact`, `CellEditProps.dir_set_iff`, `CellEditProps.edited_partial`, `CellEditProps.multiple_alone_not_restored`, `CellEditProps.multiple_restored`, `CodeNodeProps.block_plays`, `CodeNodeProps.cut_anywhere`, `CodeNodeProps.no_backend`, `CutProps.cuts_audible`, `CuttingProps.bosc`, `CuttingProps.comb`, `CuttingProps.fvafilt`, `CuttingProps.verb`, `DropThreadProps.audio_thread_frees`, `DropThreadProps.drop_returns_partial`, `ExtParamProps.get_missing`, `FreeOutputProps.first_slot_overlooked`, `GraphOrderingProps.clear_forgets`, `GraphOrderingProps.edge_from_unknown_dropped`, `GraphOrderingProps.sixty_fifth_edge_panics`, `IsolateProps.blocks_same_way`, `IsolateProps.elsewhere_heard`, `IsolateProps.listener_heard`, `LedsProps.deleted_dark`, `LedsProps.late_block_lights_new_node`, `LedsProps.new_node_shows_old_light`, `LedsProps.read_panics`, `ManyProps.at_most_256_nodes_run`, `MatrixProps.change_err_rejected_rolls_back_partial`, `MatrixProps.change_rejected_rolls_back_partial`, `MatrixProps.change_with_clear_not_rolled_back`, `MatrixProps.check_panics_over_capacity`, `MatrixProps.find_all_exact`, `MatrixProps.find_first_exact`, `MatrixProps.rejected_change_leaves_connections`, `MatrixProps.untouched_cell_reports_origin`, `MessagesProps.call_appends`, `MessagesProps.full_queue_loses`, `MessagesProps.queue_fills_up`, `MidiProps.repeated_off_loses_gate`, `MonitorProps.loud_signal_wrong`, `MonitorThreadProps.real_honest`, `MonitoredProps.empty_cell_still_shown`, `MonitoredProps.shown_unasked`, `NoiseProps.seeds_differ`, `ObserverProps.amount_change_untold`, `ObserverProps.generation_misses_amount`, `ObserverProps.monitored_untold`, `ObserverProps.notes_of_every_call`, `ObserverProps.value_untold`, `ParamProps.burst_loses_update`, `ParamProps.deleting_while_moving_panics`, `ParamProps.monitoring_idle_node_panics`, `ParamProps.moving_leaks_into_next_patch`, `PatchKeepProps.engine_of_node`, `PatchKeepProps.old_pattern_stays`, `PatchProps.amount_without_value_lost`, `PatchProps.clipped_value_changes`, `PatchProps.far_pattern_not_saved`, `PatchProps.rejected_amount_stays`, `PatchProps.unset_pattern_stays`, `RateProps.gap_node_wrong`, `RateProps.node_in_creation_wrong`, `RateProps.node_on_its_way_wrong`, `RateProps.not_all_know`, `RateProps.spare_node_wrong`, `ResetProps.midicc_remembers`, `ResetProps.test_remembers`, `ReverbProps.comb_silent`, `ReverbProps.verb_dry`, `ReverbProps.verb_silent`, `RideProps.turn_after_program_jumps`, `RustNodeProps.rate_false`, `RustNodeProps.reset_false`, `SamplesProps.failures_not_cached`, `SamplesProps.readable_loaded`, `SamplesProps.sample_contents`, `SaveProps.power_loss_loses_patch`, `SmootherProps.ends_on_target`, `TestNodeProps.other_outputs`, `TrackerProps.change_value_clamps_partial`, `TrackerProps.change_value_in_range`, `TrackerProps.change_value_overflow`, `TrackerProps.pattern_round_trip`.
* `propext`: `CellDirProps.edge_number`, `CellDirProps.menu_position_partial`, `CellDirProps.menu_position_twice`, `DropThreadProps.drop_may_not_return`, `DropThreadProps.freed_once`, `IsolateProps.turn_same_way`, `MatrixEngineProps.contiguous_new`, `MatrixProps.find_all_nodup`, `MatrixProps.unconnected_exact`, `MessagesProps.accepted_sublist`, `MessagesProps.poll_applies_in_order`, `MidiGateProps.pause_missed`, `MidiProps.same_controller_twice`, `MidiProps.too_many_events_panic`, `MonitorThreadProps.drop_may_not_return`, `NodeConfProps.rebuild_keeps_modamt`, `ReverbProps.verb_mono`, `RobustProps.lost_program_panics`, `RustNodeProps.not_told`, `StatusProps.stale_after_clear`.
* no axioms: `CellDirProps.flip_center_not_involutive`, `CellDirProps.path_fails_far`, `CellEditProps.large_port_wraps`, `ReverbProps.comb_reset_starts_over`, `SaveProps.concurrent_saves_mix`.
* `Classical.choice`, `propext`: `RideProps.timed_ridden`.

### By file

Made from the citations in `lean/Verif/Model`: for each file of the code the modules that model it and the cited lines. Lines that are not
listed (documentation, formatting for the display, constructors that only move data, tests) are not modelled.

* `src/build.rs` — `Builder`, `SynthConstructor`; lines 39-50, 88-129, 134-201, 213-215, 219-221, 225-237, 241-258
* `src/cell_dir.rs` — `CellDir`, `CellPathFloat`; lines 6-154, 159-190
* `src/chain_builder.rs` — `ChainBuilder`; lines 28-33, 56-70, 76-104, 111-165, 170-173, 177-234, 240-287
* `src/dsp/mod.rs` — `Feedback`, `FeedbackFloat`, `FormFM`, `Format`, `Graph`, `IoNodes`, `Label`, `Leds`, `MatrixEngine`, `NodeConf`, `NodeId`, `NodeList`, `NodeProg`, `NodeTable`, `Noise`, `Norm`, `NormFloat`, `Patch`, `Repr`, `Reset`, `Rounding`, `SettingNames`, `SinNode`, `TestNode`; lines 255, 340-352, 685, 702-745, 773-862, 939-1289, 1294-1402, 1419-1784, 1788-2604, 2725-2737
* `src/dsp/node_ad.rs` — `Env`, `NoiseFloat`, `SettingNames`; lines 13-23, 79-174
* `src/dsp/node_adsr.rs` — `Env`, `SettingNames`; lines 13-23, 96-126, 131-200
* `src/dsp/node_allp.rs` — `Reverb`; lines 71-116
* `src/dsp/node_amp.rs` — `IoNodes`, `MixFloat`, `SettingNames`; lines 11-20, 81-114
* `src/dsp/node_biqfilt.rs` — `BiqFilt`, `Reset`, `SettingNames`; lines 12-35, 39-58, 85-92, 101-167
* `src/dsp/node_bosc.rs` — `Graph`, `Osc`, `Reset`, `SettingNames`; lines 13-25, 29-39, 75-109, 115-186
* `src/dsp/node_bowstri.rs` — `BowStri`, `BowStriFloat`, `Reset`; lines 29-99, 144-194
* `src/dsp/node_code.rs` — `Code`, `CodeNode`, `Patch`; lines 15-19, 27-57, 104-178
* `src/dsp/node_comb.rs` — `Reverb`, `SettingNames`; lines 12-21, 67-124
* `src/dsp/node_cqnt.rs` — `Quant`, `Reset`, `SettingNames`; lines 12-46, 50-58, 92-98, 117-132
* `src/dsp/node_delay.rs` — `Delay`, `Reset`, `SettingNames`; lines 9-21, 25-33, 75-138
* `src/dsp/node_ext.rs` — `ExtParam`, `Reset`; lines 10, 15-24, 62-111, 117-122
* `src/dsp/node_fbwr_fbrd.rs` — `Feedback`; lines 18-28, 76-78, 91-101, 155-160
* `src/dsp/node_formfm.rs` — `FormFM`, `FormFMFloat`, `Reset`; lines 12-20, 62-64, 83-134
* `src/dsp/node_fvafilt.rs` — `FVaFilt`, `Reset`, `SettingNames`; lines 15-61, 65-87, 171-216, 239-393
* `src/dsp/node_inp.rs` — `IoNodes`; lines 59-70
* `src/dsp/node_map.rs` — `FloatNodes`, `MapNodes`, `SettingNames`; lines 11-20, 111-151
* `src/dsp/node_midicc.rs` — `Midi`, `MidiSet`, `Reset`, `SettingNames`; lines 13-39, 79-139
* `src/dsp/node_midip.rs` — `Midi`, `MidiGate`, `Reset`, `Rounded`, `SettingNames`; lines 13-30, 34-53, 100-196
* `src/dsp/node_mix3.rs` — `IoNodes`, `MixFloat`; lines 62-76
* `src/dsp/node_mux9.rs` — `Mux9`, `MuxFloat`, `Reset`, `SettingNames`; lines 12-47, 127-209
* `src/dsp/node_noise.rs` — `Noise`, `NoiseFloat`, `Reset`, `SettingNames`; lines 9-21, 25-36, 76-118
* `src/dsp/node_out.rs` — `IoNodes`, `MixFloat`, `SettingNames`; lines 12-21, 77-94
* `src/dsp/node_pverb.rs` — `Reverb`; lines 10-24, 174-243
* `src/dsp/node_quant.rs` — `Quant`, `Reset`, `SettingNames`; lines 12-16, 20-28, 63-69, 86-101
* `src/dsp/node_rndwk.rs` — `FloatNodes`, `Reset`, `RndWk`; lines 12-26, 109-141
* `src/dsp/node_rust.rs` — `RustNode`; lines 19-27, 78-85, 98-100, 119-134, 140-158, 168-181, 216-251
* `src/dsp/node_sampl.rs` — `Reset`, `Sampl`, `SamplFloat`, `SettingNames`; lines 11-67, 141-159, 164-289, 300-345
* `src/dsp/node_scope.rs` — `ScopeClock`, `ScopeNode`, `SettingNames`; lines 21-31, 35-42, 46-61, 113-115, 120-233
* `src/dsp/node_sfilter.rs` — `Reset`, `SFilter`, `SettingNames`; lines 9-37, 41-54, 226-396
* `src/dsp/node_sin.rs` — `Reset`, `SinNode`; lines 14-21, 26-30, 98-110
* `src/dsp/node_smap.rs` — `FloatNodes`, `MapNodes`, `SettingNames`; lines 11-34, 119-195
* `src/dsp/node_test.rs` — `Graph`, `Reset`, `SettingNames`, `TestNode`; lines 13-31, 35-43, 64, 69-124
* `src/dsp/node_tseq.rs` — `Patch`, `Reset`, `SettingNames`, `TSeqNode`; lines 15-39, 52-64, 181-284
* `src/dsp/node_tslfo.rs` — `Graph`, `RateFloat`, `Reset`, `Reverb`; lines 13-21, 48-63, 68-110
* `src/dsp/node_vosc.rs` — `Graph`, `Osc`, `RateFloat`, `Reset`, `SettingNames`; lines 13-24, 28-43, 87-109, 114-189
* `src/dsp/satom.rs` — `IoNodes`, `Repr`, `TestNode`; lines 6-12, 49-55, 64-70
* `src/dsp/tracker/mod.rs` — `TSeqNode`, `Tracker`; lines 12-22, 28-42, 50-54, 73-83, 89-144, 150-168
* `src/dsp/tracker/pattern.rs` — `NoteFloat`, `Patch`, `Tracker`; lines 10-36, 40-108, 114-118, 134-229, 233-238, 268-324, 358-403, 407-410
* `src/dsp/tracker/sequencer.rs` — `FloatNodes`, `FloatSeq`, `GateSeq`, `TSeqNode`, `Tracker`; lines 9-33, 39-40, 45-57, 67-195
* `src/global.rs` — `Code`, `Feedback`, `Patch`, `RustNode`; lines 27-60, 73-89, 93-99, 137-146, 161-168, 174-191, 196-220, 227-233, 242-251
* `src/lib.rs` — `IoNodes`; lines 387-408
* `src/log.rs` — `Log`; lines 19-120
* `src/matrix.rs` — `CellEdit`, `ChainBuilder`, `Engine`, `Label`, `Matrix`, `MatrixEngine`, `NodeConf`, `Observer`, `Patch`, `Rate`, `RustNode`; lines 36-53, 69-71, 75-77, 96-316, 322-356, 361-385, 390-423, 430-435, 439-522, 527-545, 560-562, 661-664, 671-675, 699-713, 717-734, 744-765, 781-790, 795-818, 864-905, 912-951, 975-981, 985-987, 1006-1017, 1025-1030, 1042-1048, 1056-1126, 1142-1254, 1264-1353, 1367-1389, 1430-1451, 1455-1485, 1508-1512
* `src/matrix_repr.rs` — `Patch`, `Repr`, `Save`, `Tracker`; lines 9-101, 106-204, 230-297, 305-320, 341-506, 527-533
* `src/monitor.rs` — `Monitor`, `MonitorThread`; lines 50-60, 65-69, 73-75, 85-90, 94-118, 122-143, 150-158, 171-174, 207-309, 326-338, 344-348, 362-380, 384-395, 411-445
* `src/nodes/drop_thread.rs` — `DropThread`, `Engine`; lines 12, 17-37, 42
* `src/nodes/feedback_filter.rs` — `VisualFilter`; lines 10-43
* `src/nodes/midi.rs` — `Midi`; lines 5-10, 17-23, 42-103
* `src/nodes/mod.rs` — `Engine`, `NodeConf`, `NodeExec`, `Rate`, `Scope`; lines 5-7, 44-74
* `src/nodes/node_conf.rs` — `DropThread`, `Engine`, `Leds`, `MatrixEngine`, `NodeConf`, `NormFloat`, `Patch`, `Rate`, `Status`, `SynthConstructor`; lines 22, 27-70, 75-112, 154-260, 268-372, 383-401, 406-408, 414-460, 489-513, 519-536, 540-555, 579-585, 592-598, 677-704, 710-733, 746-756, 766-867, 874-880, 891-914, 952-972, 981-987
* `src/nodes/node_exec.rs` — `DropThread`, `ExtParam`, `IoNodes`, `Leds`, `Midi`, `Monitor`, `NodeExec`, `Patch`, `Rate`, `Status`; lines 37-67, 75, 79, 100-149, 169, 178-198, 203-364, 376-511, 525-585
* `src/nodes/node_graph_ordering.rs` — `GraphOrdering`; lines 9, 13-42, 46-87, 99-132, 139-190
* `src/nodes/node_prog.rs` — `NodeProg`, `Rate`; lines 14-25, 37-65, 71-121, 159-215, 226-278, 296-328, 333-402
* `src/nodes/visual_sampling_filter.rs` — `VisualFilter`; lines 11-47, 70-92
* `src/sample_lib.rs` — `SampleConv`, `Samples`; lines 11-14, 22, 26-34, 41-77
* `src/scope_handle.rs` — `Scope`; lines 10-86
* `src/shared_feedback.rs` — `Feedback`, `FeedbackFloat`; lines 14, 22-42, 59-66, 74-77, 95-97, 102-106
* `src/synth_constructor.rs` — `RustNode`, `SynthConstructor`; lines 47-76, 87-111, 118-225, 240-249, 283-287, 299-357
* `src/util.rs` — `Rounded`, `Smoother`; lines 5-71
* `src/wblockdsp/compiler.rs` — `BlockCompile`; lines 13-18, 26-38, 88-111, 187-209, 221-515
* `src/wblockdsp/definition.rs` — `BlockLang`, `Patch`; lines 16-260
* `src/wblockdsp/language.rs` — `Block`, `BlockCompile`, `BlockView`, `FreeOutput`; lines 69-107, 112-127, 131-154, 158-166, 182-263, 270-276, 280-325, 366, 370-376, 380-426, 435-486, 493-558, 562-579, 593-701, 711-740, 753-800, 806-816, 820-894, 898-919, 923-948, 973-1013, 1017-1092, 1104-1152, 1156-1183, 1193-1196, 1203-1773, 1779-1786

Not modelled at all: `src/wblockdsp/mod.rs`.
