{
 "claims": [
  {
   "property": "C01",
   "status": "proved",
   "theorems": [
    "HexoDSP.CellDirProps.step_flip_returns",
    "HexoDSP.CellDirProps.step_moves_centre",
    "HexoDSP.CellDirProps.step_refused_iff",
    "HexoDSP.CellDirProps.flip_center_not_involutive"
   ],
   "note": "All seven directions and all positions."
  },
  {
   "property": "C02",
   "status": "proved",
   "theorems": [
    "HexoDSP.CellDirProps.are_adjacent_iff",
    "HexoDSP.CellDirProps.adjacent_iff_centres",
    "HexoDSP.CellDirProps.are_adjacent_none_iff",
    "HexoDSP.CellDirProps.are_adjacent_swap",
    "HexoDSP.CellDirProps.neighbours_distinct"
   ],
   "note": "All pairs of positions."
  },
  {
   "property": "C03",
   "status": "partial",
   "theorems": [
    "HexoDSP.CellDirProps.path_reaches_partial",
    "HexoDSP.CellDirProps.path_reaches_200_partial",
    "HexoDSP.CellDirProps.path_length_le",
    "HexoDSP.CellDirProps.path_fails_far",
    "HexoDSP.CellPathFloatProps.same_path"
   ],
   "note": "The full statement is false: path_fails_far exhibits (0,0)->(255,255) for which the code gives up. Proved for all pairs within the step budget. same_path: the f32 numbers the code uses give the same path (powf(2.0) taken as the rounded square)."
  },
  {
   "property": "C04",
   "status": "proved",
   "theorems": [
    "HexoDSP.GraphOrderingProps.history_never_panics",
    "HexoDSP.GraphOrderingProps.order_is_topological",
    "HexoDSP.GraphOrderingProps.order_appends",
    "HexoDSP.GraphOrderingProps.clear_forgets",
    "HexoDSP.GraphOrderingProps.sixty_fifth_edge_panics",
    "HexoDSP.GraphOrderingProps.edge_from_unknown_dropped"
   ],
   "note": "All histories in which every node has at most 64 successors (Fits); the 65th panics in the code, shown by sixty_fifth_edge_panics."
  },
  {
   "property": "C05",
   "status": "proved",
   "theorems": [
    "HexoDSP.GraphOrderingProps.order_succeeds_iff_acyclic"
   ],
   "note": "Same histories as C04."
  },
  {
   "property": "C06",
   "status": "proved",
   "theorems": [
    "HexoDSP.GraphOrderingProps.has_path_truthful",
    "HexoDSP.GraphOrderingProps.has_path_undecided_on_diamond"
   ],
   "note": "A given yes/no answer is the truth; the None answer on an acyclic diamond is exhibited."
  },
  {
   "property": "C07",
   "status": "proved",
   "theorems": [
    "HexoDSP.MatrixProps.get_answers_iff",
    "HexoDSP.MatrixProps.place_writes_one_cell",
    "HexoDSP.MatrixProps.place_history",
    "HexoDSP.MatrixProps.positions_true",
    "HexoDSP.MatrixProps.untouched_cell_reports_origin"
   ],
   "note": "Every reachable matrix, every history of place calls. Positions are stored as u8, so true positions need at most 256x256 cells; get on a never placed cell reports (0,0)."
  },
  {
   "property": "C08",
   "status": "partial",
   "theorems": [
    "HexoDSP.MatrixProps.change_rejected_rolls_back_partial",
    "HexoDSP.MatrixProps.change_err_rejected_rolls_back_partial",
    "HexoDSP.MatrixProps.change_accepted",
    "HexoDSP.MatrixProps.change_rejects_only_illegal",
    "HexoDSP.MatrixProps.change_with_clear_not_rolled_back",
    "HexoDSP.MatrixProps.rejected_change_leaves_connections"
   ],
   "note": "Proved for closures that do not touch the backup. The full statement is false: a closure that calls clear (or save/restore, or nests change_matrix) loses the backup, shown by change_with_clear_not_rolled_back."
  },
  {
   "property": "C09",
   "status": "proved",
   "theorems": [
    "HexoDSP.MatrixProps.check_exact",
    "HexoDSP.MatrixProps.duplicate_error_truthful",
    "HexoDSP.MatrixProps.placed_once_within_capacity",
    "HexoDSP.MatrixProps.sync_exact",
    "HexoDSP.MatrixProps.check_panics_over_capacity",
    "HexoDSP.MatrixProps.check_panics_iff",
    "HexoDSP.MatrixProps.sync_panics_iff"
   ],
   "note": "For grids where no node leads to more than 64 nodes, which holds whenever each node sits in one cell; beyond it check panics (check_panics_iff)."
  },
  {
   "property": "C10",
   "status": "proved",
   "theorems": [
    "HexoDSP.MatrixProps.sync_connections_exact",
    "HexoDSP.MatrixProps.check_connections_exact",
    "HexoDSP.MatrixProps.get_connections_exact"
   ],
   "note": "Same capacity premise as C09."
  },
  {
   "property": "C49",
   "status": "proved",
   "theorems": [
    "HexoDSP.MatrixProps.find_all_exact",
    "HexoDSP.MatrixProps.find_all_nodup",
    "HexoDSP.MatrixProps.find_first_exact",
    "HexoDSP.MatrixProps.unconnected_exact"
   ],
   "note": "Every grid, cell and kind of search."
  },
  {
   "property": "C16",
   "status": "proved",
   "theorems": [
    "HexoDSP.SmootherProps.ends_on_target",
    "HexoDSP.SmootherProps.done_iff",
    "HexoDSP.SmootherProps.follows_ramp",
    "HexoDSP.SmootherProps.stays_between",
    "HexoDSP.SmootherProps.monotone_towards",
    "HexoDSP.SmootherProps.retarget_continues",
    "HexoDSP.SmootherProps.slope_is_10ms"
   ],
   "note": "ends_on_target and done_iff hold for any arithmetic, so also for f32; the ramp shape is proved over the rationals."
  },
  {
   "property": "C11",
   "status": "proved",
   "theorems": [
    "HexoDSP.NodeConfProps.regions_tile",
    "HexoDSP.NodeConfProps.region_sizes",
    "HexoDSP.NodeConfProps.local_to_global_owner",
    "HexoDSP.NodeConfProps.mod_local_to_global"
   ],
   "note": "Every configurator reached by any history in which no node is created twice; after every rebuild."
  },
  {
   "property": "C17",
   "status": "proved",
   "theorems": [
    "HexoDSP.NodeConfProps.rebuild_keeps_params",
    "HexoDSP.NodeConfProps.rebuild_keeps_modamt",
    "HexoDSP.NodeConfProps.program_holds_params",
    "HexoDSP.NodeConfProps.param_value_persists",
    "HexoDSP.NodeConfProps.param_value_set",
    "HexoDSP.NodeConfProps.modamt_persists",
    "HexoDSP.NodeConfProps.modamt_set"
   ],
   "note": "Every history of calls; a value is only lost by delete_nodes."
  },
  {
   "property": "C50",
   "status": "proved",
   "theorems": [
    "HexoDSP.MatrixEngineProps.unused_instance_first",
    "HexoDSP.MatrixEngineProps.unused_instance_terminates",
    "HexoDSP.MatrixEngineProps.unused_instance_loops",
    "HexoDSP.MatrixEngineProps.create_intermediate_contiguous",
    "HexoDSP.MatrixEngineProps.contiguous_new"
   ],
   "note": "Every reachable engine. With all 256 instances in use the code loops for ever (unused_instance_loops)."
  },
  {
   "property": "C51",
   "status": "proved",
   "theorems": [
    "HexoDSP.OwnershipProps.buffers_accounted",
    "HexoDSP.OwnershipProps.never_freed_twice",
    "HexoDSP.OwnershipProps.running_buffers_live",
    "HexoDSP.OwnershipProps.queued_buffers_live",
    "HexoDSP.OwnershipProps.block_uses_only_running_buffers",
    "HexoDSP.OwnershipProps.idle_frees_everything_else"
   ],
   "note": "Every history of calls of the three threads (interleaved at call granularity), with copy_old_out on or off, full queues included."
  },
  {
   "property": "C52",
   "status": "proved",
   "theorems": [
    "HexoDSP.MessagesProps.call_appends",
    "HexoDSP.MessagesProps.poll_applies_in_order",
    "HexoDSP.MessagesProps.fifo",
    "HexoDSP.MessagesProps.nothing_lost",
    "HexoDSP.MessagesProps.accepted_sublist",
    "HexoDSP.MessagesProps.full_queue_loses",
    "HexoDSP.MessagesProps.queue_fills_up"
   ],
   "note": "Every history. The queue of crate ringbuf is assumed FIFO with 512 entries."
  },
  {
   "property": "C12",
   "status": "proved",
   "theorems": [
    "HexoDSP.FlowProps.block_is_dataflow",
    "HexoDSP.FlowProps.every_node_runs_once",
    "HexoDSP.FlowProps.inputs_are_sources",
    "HexoDSP.FlowProps.atoms_are_latest",
    "HexoDSP.FlowProps.poll_never_panics"
   ],
   "note": "Refinement of the two-thread machine (buffers, index regions, queue, program exchange) to a reference machine, for every history in which nodes are created once, new programs are legal (what Matrix::sync produces) and the queue has room, and for node types with at most 32 inputs (all existing ones)."
  },
  {
   "property": "C13",
   "status": "proved",
   "theorems": [
    "HexoDSP.FlowProps.modulated_input"
   ],
   "note": "Same histories as C12; any arithmetic, so also f32."
  },
  {
   "property": "C14",
   "status": "proved",
   "theorems": [
    "HexoDSP.FlowProps.connected_flags"
   ],
   "note": "Same histories as C12."
  },
  {
   "property": "C53",
   "status": "proved",
   "theorems": [
    "HexoDSP.FlowProps.feedback_is_last_sample"
   ],
   "note": "Same histories as C12; the triple buffer is simplified to its last published value."
  },
  {
   "property": "C15",
   "status": "partial",
   "theorems": [
    "HexoDSP.ParamProps.param_arrives_partial",
    "HexoDSP.ParamProps.set_then_hear_partial",
    "HexoDSP.ParamProps.block_never_panics",
    "HexoDSP.ParamProps.deleting_while_moving_panics",
    "HexoDSP.ParamProps.moving_leaks_into_next_patch",
    "HexoDSP.ParamProps.burst_loses_update"
   ],
   "note": "The full statement is false in three ways, each exhibited by a careful history. Proved for every history in which at most 40 parameters move at a time and nodes are deleted only while none moves (Timed)."
  },
  {
   "property": "C54",
   "status": "proved",
   "theorems": [
    "HexoDSP.ParamProps.monitor_shows_ports",
    "HexoDSP.ParamProps.monitoring_idle_node_panics"
   ],
   "note": "Same histories as C15; the monitored node must be part of the running program, otherwise the code reads a null pointer (witness)."
  },
  {
   "property": "C23",
   "status": "proved",
   "theorems": [
    "HexoDSP.MidiProps.events_in_their_block",
    "HexoDSP.MidiProps.each_event_once",
    "HexoDSP.MidiProps.block_sizes_cover",
    "HexoDSP.MidiProps.too_many_events_panic"
   ],
   "note": "Every ordered event list and every sequence of blocks within the buffer limits (Fits); beyond them too_many_events_panic."
  },
  {
   "property": "C24",
   "status": "proved",
   "theorems": [
    "HexoDSP.MidiProps.frame_sees_its_events",
    "HexoDSP.MidiProps.block_sees_each_event_once"
   ],
   "note": "Every ordered buffer and block length."
  },
  {
   "property": "C25",
   "status": "partial",
   "theorems": [
    "HexoDSP.MidiProps.gate_follows_note_partial",
    "HexoDSP.MidiProps.frames_are_absolute",
    "HexoDSP.MidiProps.repeated_off_loses_gate",
    "HexoDSP.MidiGateProps.channel_change_hangs",
    "HexoDSP.MidiGateProps.gate_len_exact"
   ],
   "note": "Proved for event lists in which, within one frame, a note off before a note on releases the held note or is about another note than the last (Clean), one fixed channel. Both are needed: repeated_off_loses_gate, channel_change_hangs. gate_len_exact (C133) says what the gate is for all event lists and channels."
  },
  {
   "property": "C26",
   "status": "partial",
   "theorems": [
    "HexoDSP.MidiProps.cc_follows_latest_partial",
    "HexoDSP.MidiProps.same_controller_twice",
    "HexoDSP.MidiSetProps.cc_any_settings",
    "HexoDSP.MidiSetProps.led_says_taken"
   ],
   "note": "cc_any_settings: all settings, also when they change from block to block; of equal controllers only the first output follows, so that the statement is false then (same_controller_twice). The slew limiter is an arbitrary function."
  },
  {
   "property": "C55",
   "status": "partial",
   "theorems": [
    "HexoDSP.MidiProps.injected_event_first_partial",
    "HexoDSP.MidiProps.events_in_their_block",
    "HexoDSP.MidiProps.injected_note_hangs"
   ],
   "note": "The statement is false for two events before the same block: they arrive in reverse order, injected_note_hangs."
  },
  {
   "property": "C27",
   "status": "proved",
   "theorems": [
    "HexoDSP.VisualProps.filter_reports_peaks",
    "HexoDSP.VisualProps.filter_alternating"
   ],
   "note": "Every history of calls."
  },
  {
   "property": "C28",
   "status": "proved",
   "theorems": [
    "HexoDSP.VisualProps.display_value",
    "HexoDSP.VisualProps.display_independent",
    "HexoDSP.VisualProps.same_frame_same_answer",
    "HexoDSP.VisualProps.every_frame_answer",
    "HexoDSP.VisualProps.every_second_frame_frozen",
    "HexoDSP.VisualProps.first_request_in_odd_frame_zero"
   ],
   "note": "Every history of requests and frames. Requests in every second frame only are frozen for ever (every_second_frame_frozen)."
  },
  {
   "property": "C29",
   "status": "partial",
   "theorems": [
    "HexoDSP.FeedbackProps.delayed_signal_partial",
    "HexoDSP.FeedbackProps.writer_first_no_delay",
    "HexoDSP.FeedbackProps.late_reader_other_delay",
    "HexoDSP.FeedbackProps.delay_ignores_sample_rate",
    "HexoDSP.FeedbackProps.instances_independent",
    "HexoDSP.FeedbackProps.delay_is_138",
    "HexoDSP.FeedbackProps.new_writer_keeps_signal",
    "HexoDSP.FeedbackProps.reader_alone",
    "HexoDSP.FeedbackProps.created_in_any_order",
    "HexoDSP.FeedbackFloatProps.delay_length",
    "HexoDSP.FeedbackFloatProps.same_delay"
   ],
   "note": "delay_length and same_delay are about the f32 numbers with which the code computes the length. Proved for nodes created together and the reader running first, apart from the very first sample. The full statement is false: no delay if the writer runs first, another delay if the reader is created later, and 138 samples at every sample rate."
  },
  {
   "property": "C30",
   "status": "proved",
   "theorems": [
    "HexoDSP.ScopeProps.read_last_write",
    "HexoDSP.ScopeProps.settings_last_set"
   ],
   "note": "Every history of calls with any indices; atomics as plain variables."
  },
  {
   "property": "C47",
   "status": "proved",
   "theorems": [
    "HexoDSP.Mux9Props.triggers_select",
    "HexoDSP.Mux9Props.slct_selects",
    "HexoDSP.Mux9Props.slct_divides_range",
    "HexoDSP.Mux9Props.bad_count_panics"
   ],
   "note": "Every trigger behaviour, state, settings 0 to 8. Settings out of the documented range can panic (bad_count_panics)."
  },
  {
   "property": "C48",
   "status": "proved",
   "theorems": [
    "HexoDSP.MapProps.smap_clipped_in_range",
    "HexoDSP.MapProps.smap_affine",
    "HexoDSP.MapProps.smap_end_points",
    "HexoDSP.MapProps.map_clipped_in_range",
    "HexoDSP.MapProps.map_end_points"
   ],
   "note": "All rationals; f32 rounding and NaN not modelled."
  },
  {
   "property": "C56",
   "status": "partial",
   "theorems": [
    "HexoDSP.MapProps.smap_clips_to_ends",
    "HexoDSP.MapProps.map_in_range_partial",
    "HexoDSP.MapProps.map_folds_below"
   ],
   "note": "Proved for SMap and for Map above the range; false for Map below the range (map_folds_below)."
  },
  {
   "property": "C31",
   "status": "partial",
   "theorems": [
    "HexoDSP.TrackerProps.change_value_in_range",
    "HexoDSP.TrackerProps.change_value_clamps_partial",
    "HexoDSP.TrackerProps.cells_stay_12_bit",
    "HexoDSP.TrackerProps.change_value_overflow"
   ],
   "note": "Range and clamped sum are proved for all offsets whose sum with the cell fits i32; beyond it overflows (change_value_overflow)."
  },
  {
   "property": "C32",
   "status": "proved",
   "theorems": [
    "HexoDSP.TrackerProps.pattern_round_trip"
   ],
   "note": "Every pattern and every target pattern."
  },
  {
   "property": "C33",
   "status": "partial",
   "theorems": [
    "HexoDSP.TrackerProps.edits_arrive_partial",
    "HexoDSP.TrackerProps.held_columns_arrive_partial",
    "HexoDSP.TrackerProps.row_change_not_compiled",
    "HexoDSP.TrackerProps.new_sequencer_silent",
    "HexoDSP.TrackerProps.full_queue_loses_edit",
    "HexoDSP.TrackerProps.too_many_rows_panic"
   ],
   "note": "Every history without load of more than 256 rows, with room in the queue and an attached sequencer. The full statement is false: a row change does not recompile value columns, a sequencer created again gets nothing, a full queue loses an edit."
  },
  {
   "property": "C34",
   "status": "proved",
   "theorems": [
    "HexoDSP.TrackerProps.columns_compile",
    "HexoDSP.TrackerProps.sounds_unique"
   ],
   "note": "Every pattern with 1 to 256 rows; f32 as rationals."
  },
  {
   "property": "C57",
   "status": "partial",
   "theorems": [
    "HexoDSP.TrackerProps.text_is_value_partial",
    "HexoDSP.TrackerProps.stale_text_after_load"
   ],
   "note": "Proved for histories without loads; false after loading (stale_text_after_load)."
  },
  {
   "property": "C58",
   "status": "proved",
   "theorems": [
    "HexoDSP.TrackerProps.generation_tracks_changes"
   ],
   "note": "Every pattern, every edit; the generation is modelled without overflow of usize."
  },
  {
   "property": "C35",
   "status": "proved",
   "theorems": [
    "HexoDSP.SequencerProps.row_below_rows",
    "HexoDSP.SequencerProps.row_of_phase",
    "HexoDSP.SequencerProps.row_monotone",
    "HexoDSP.SequencerProps.every_row_played",
    "HexoDSP.SequencerProps.lookup_row",
    "HexoDSP.SequencerProps.interpolated_between",
    "HexoDSP.SequencerProps.step_column_plays"
   ],
   "note": "All rows from 1 to 256 and phases; f32 as rationals."
  },
  {
   "property": "C59",
   "status": "proved",
   "theorems": [
    "HexoDSP.SequencerProps.gate_cell_meaning",
    "HexoDSP.SequencerProps.empty_gate_silent"
   ],
   "note": "All cells, positions and random numbers."
  },
  {
   "property": "C60",
   "status": "partial",
   "theorems": [
    "HexoDSP.SequencerProps.draw_per_visit_partial",
    "HexoDSP.SequencerProps.single_random_row_drawn_once"
   ],
   "note": "Exactly one number is drawn for each visit when only rows with random or empty cells count; the full statement is false: single_random_row_drawn_once."
  },
  {
   "property": "C21",
   "status": "proved",
   "theorems": [
    "HexoDSP.MonitorProps.buffers_conserved",
    "HexoDSP.MonitorProps.no_other_buffers",
    "HexoDSP.MonitorProps.queues_have_room",
    "HexoDSP.MonitorProps.all_return"
   ],
   "note": "Every interleaving of audio, monitor and frontend thread, any number of steps."
  },
  {
   "property": "C22",
   "status": "partial",
   "theorems": [
    "HexoDSP.MonitorProps.points_are_extremes_partial",
    "HexoDSP.MonitorProps.points_up_to_date_partial",
    "HexoDSP.MonitorProps.loud_signal_wrong"
   ],
   "note": "Every interleaving and split for samples within +-100; beyond that the statement is false (loud_signal_wrong)."
  },
  {
   "property": "C20",
   "status": "partial",
   "theorems": [
    "HexoDSP.SaveProps.save_atomic_partial",
    "HexoDSP.SaveProps.save_survives_power_loss_partial",
    "HexoDSP.SaveProps.power_loss_loses_patch",
    "HexoDSP.SaveProps.concurrent_saves_mix"
   ],
   "note": "Proved for the death of the process at any point and for power loss with ordered write-back. False for power loss without ordered write-back (no flush before the rename) and for two simultaneous saves."
  },
  {
   "property": "C43",
   "status": "proved",
   "theorems": [
    "HexoDSP.TableProps.node_id_round_trip",
    "HexoDSP.TableProps.from_str_spec",
    "HexoDSP.TableProps.name_instance_unique",
    "HexoDSP.TableProps.lookup_name_iff_index",
    "HexoDSP.TableProps.lookup_sound",
    "HexoDSP.TableProps.indices_dense",
    "HexoDSP.TableProps.input_by_index",
    "HexoDSP.TableProps.atoms_by_index",
    "HexoDSP.TableProps.port_names"
   ],
   "note": "Every node id, parameter, index and string."
  },
  {
   "property": "C61",
   "status": "partial",
   "theorems": [
    "HexoDSP.TableProps.info_input_names_partial",
    "HexoDSP.TableProps.info_output_names",
    "HexoDSP.TableProps.info_atom_names_partial",
    "HexoDSP.TableProps.smap_atoms_swapped",
    "HexoDSP.TableProps.in_name_of_atom_missing",
    "HexoDSP.TableProps.in_name_of_atom_wrong"
   ],
   "note": "Proved for inputs, outputs and for the atoms of all nodes but SMap; false for the atoms of SMap (smap_atoms_swapped) and for in_name with the index of an atom."
  },
  {
   "property": "C44",
   "status": "proved",
   "theorems": [
    "HexoDSP.NormProps.norm_denorm",
    "HexoDSP.NormProps.denorm_increasing",
    "HexoDSP.NormProps.denorm_range",
    "HexoDSP.NormProps.decibel_ok"
   ],
   "note": "Every parameter of the table and every real value; f32 rounding not modelled; the decibel functions of the crate synfx_dsp are assumed inverse and increasing (Gain.Ok, met by the true decibel functions)."
  },
  {
   "property": "C62",
   "status": "partial",
   "theorems": [
    "HexoDSP.NormProps.norm_above_partial",
    "HexoDSP.NormProps.pitch_clamped",
    "HexoDSP.NormProps.below_range_mirrored",
    "HexoDSP.NormProps.delay_time_zero"
   ],
   "note": "Proved above the lower end and for pitches; below the lower end the value is mirrored (below_range_mirrored)."
  },
  {
   "property": "C63",
   "status": "partial",
   "theorems": [
    "HexoDSP.NormProps.default_in_range_partial",
    "HexoDSP.NormProps.reverb_default_out_of_range"
   ],
   "note": "Proved for all parameters but ihpf and rhpf of the reverb, whose default is out of range (reverb_default_out_of_range)."
  },
  {
   "property": "C38",
   "status": "partial",
   "theorems": [
    "HexoDSP.BlockProps.slots_found_partial",
    "HexoDSP.BlockProps.blocks_apart_partial",
    "HexoDSP.BlockProps.block_found_partial",
    "HexoDSP.BlockProps.wide_filler_overlaps",
    "HexoDSP.BlockProps.language_tall"
   ],
   "note": "Every history of calls, if chains are split only with fillers of one row without sub areas and no block is cloned into an area that this call makes; false for a chain split with \"->2\" (wide_filler_overlaps)."
  },
  {
   "property": "C39",
   "status": "partial",
   "theorems": [
    "HexoDSP.BlockProps.error_changes_nothing_partial",
    "HexoDSP.BlockProps.move_to_unknown_area_loses_block"
   ],
   "note": "Every history and call, same restriction of histories, and the target area of move_block_from_to exists; otherwise the block is lost (move_to_unknown_area_loses_block)."
  },
  {
   "property": "C40",
   "status": "partial",
   "theorems": [
    "HexoDSP.BlockProps.no_area_inside_itself_partial",
    "HexoDSP.BlockProps.one_block_per_area_partial",
    "HexoDSP.BlockProps.recalculate_returns_partial",
    "HexoDSP.BlockProps.filler_without_area",
    "HexoDSP.BlockProps.clone_into_itself"
   ],
   "note": "Same restriction of histories; false for a chain split with \"if\" (filler_without_area) and for cloning into the area with the next number (clone_into_itself)."
  },
  {
   "property": "C41",
   "status": "partial",
   "theorems": [
    "HexoDSP.BlockProps.ids_unique_partial",
    "HexoDSP.BlockProps.ids_not_reused_partial",
    "HexoDSP.BlockProps.ids_reused_after_restore"
   ],
   "note": "Blocks present at the same time, in every history of this kind; over time only as long as no snapshot is loaded (ids_reused_after_restore)."
  },
  {
   "property": "C42",
   "status": "partial",
   "theorems": [
    "HexoDSP.BlockProps.snapshot_round_trip_partial"
   ],
   "note": "Every state of such a history with numbers of the types of the code, ids of areas and colors below 2^63; the documents of serde_json are trees."
  },
  {
   "property": "C64",
   "status": "partial",
   "theorems": [
    "HexoDSP.BlockProps.size_fits_partial"
   ],
   "note": "Same restriction of histories."
  },
  {
   "property": "C65",
   "status": "partial",
   "theorems": [
    "HexoDSP.BlockProps.chain_taken_out_partial",
    "HexoDSP.BlockProps.chain_moved_partial",
    "HexoDSP.ChainMoveProps.chain_where",
    "HexoDSP.ChainMoveProps.chain_where_other",
    "HexoDSP.ChainMoveProps.chain_leaves_area",
    "HexoDSP.ChainMoveProps.chain_leaves_sub_area"
   ],
   "note": "Same restriction of histories. chain_where is about moves inside of one area, chain_where_other about moves to another area (for chains whose left upper corner is at most at 100000000). A chain may be put above or left of its area although there is room inside (chain_leaves_area, chain_leaves_sub_area): this part of the property is not true."
  },
  {
   "property": "C66",
   "status": "partial",
   "theorems": [
    "HexoDSP.BlockProps.calls_return_partial",
    "HexoDSP.BlockProps.shift_port_returns_partial",
    "HexoDSP.BlockProps.shift_port_panics",
    "HexoDSP.BlockProps.clone_into_itself"
   ],
   "note": "Same restriction of histories; false for shift_port with a row out of range (shift_port_panics) and for moving a block that was cloned into itself (clone_into_itself)."
  },
  {
   "property": "C68",
   "status": "partial",
   "theorems": [
    "HexoDSP.BlockProps.snapshot_restores_partial"
   ],
   "note": "Same restriction of histories (see C40 for the others)."
  },
  {
   "property": "C67",
   "status": "partial",
   "theorems": [
    "HexoDSP.BlockProps.instanciate_succeeds",
    "HexoDSP.BlockProps.instanciate_places",
    "HexoDSP.BlockProps.remove_removes_partial",
    "HexoDSP.BlockProps.move_moves_partial",
    "HexoDSP.BlockProps.clone_clones_partial",
    "HexoDSP.BlockProps.chain_split_partial",
    "HexoDSP.BlockProps.shift_port_shifts_partial"
   ],
   "note": "Placing: every state. The others: every history in which chains are split only with fillers of one row without sub areas and no block is cloned into an area that this call makes."
  },
  {
   "property": "C69",
   "status": "partial",
   "theorems": [
    "HexoDSP.BlockProps.changes_noticed_partial",
    "HexoDSP.BlockProps.taking_out_not_noticed"
   ],
   "note": "Same restriction of histories; all calls but retrieve_block_chain_at with removal, for which it is false (taking_out_not_noticed), and moving a block to an area that does not exist."
  },
  {
   "property": "C19",
   "status": "partial",
   "theorems": [
    "HexoDSP.ReprProps.patch_round_trip_partial",
    "HexoDSP.ReprProps.newer_version_rejected",
    "HexoDSP.ReprProps.nan_property_unreadable",
    "HexoDSP.ReprProps.nan_value_lost",
    "HexoDSP.ReprProps.short_waveform_panics",
    "HexoDSP.ReprProps.atom_port_lost",
    "HexoDSP.ReprProps.nop_param_unreadable"
   ],
   "note": "Every representation whose numbers are finite, waveforms have eight samples, cell ports are ports, parameters are parameters of nodes, and block programs are as in C42; each of these restrictions is needed (see the negation theorems). Documents are trees: printing and parsing by serde_json is assumed to be exact."
  },
  {
   "property": "C70",
   "status": "partial",
   "theorems": [
    "HexoDSP.ReprProps.reading_returns_partial",
    "HexoDSP.ReprProps.large_pattern_panics",
    "HexoDSP.ReprProps.unknown_setting_ignored"
   ],
   "note": "Every document whose pattern tables have at most six column types, 256 rows and six cells in a row; false otherwise (large_pattern_panics). Documents are trees."
  },
  {
   "property": "C71",
   "status": "proved",
   "theorems": [
    "HexoDSP.ReprProps.saving_deterministic",
    "HexoDSP.ReprProps.resaving_same"
   ],
   "note": "Reading and saving again: patches without block programs, whose blocks are listed in the order of a hash table."
  },
  {
   "property": "C45",
   "status": "proved",
   "theorems": [
    "HexoDSP.SamplesProps.loaded_once",
    "HexoDSP.SamplesProps.samples_not_mixed",
    "HexoDSP.SamplesProps.failures_not_cached"
   ],
   "note": "The library hound is modelled by what it yields; the file system may change in any way between calls. A file that claims zero channels would panic (step_by(0)) if hound let it through."
  },
  {
   "property": "C72",
   "status": "proved",
   "theorems": [
    "HexoDSP.SamplesProps.sample_contents",
    "HexoDSP.SamplesProps.readable_loaded",
    "HexoDSP.SampleConvProps.sixteen_bits",
    "HexoDSP.SampleConvProps.loaded_exactly"
   ],
   "note": "sample_contents and readable_loaded hold for any conversions; loaded_exactly is about those of the code, with any rounding to the nearest f32."
  },
  {
   "property": "C46",
   "status": "partial",
   "theorems": [
    "HexoDSP.LogProps.messages_in_order_partial",
    "HexoDSP.LogProps.logging_never_panics_partial",
    "HexoDSP.LogProps.nothing_left_behind_partial",
    "HexoDSP.LogProps.poll_delivers_all_partial",
    "HexoDSP.LogProps.long_message_panics",
    "HexoDSP.LogProps.message_of_511_joined",
    "HexoDSP.LogProps.full_buffer_loses",
    "HexoDSP.LogProps.full_buffer_reached",
    "HexoDSP.LogProps.log_buf_torn"
   ],
   "note": "Messages of at most 510 bytes while there is space in the ring buffer, all interleavings of any number of threads with the reader; false otherwise: see the negation theorems."
  },
  {
   "property": "C36",
   "status": "proved",
   "theorems": [
    "HexoDSP.ChainProps.chain_laid_out",
    "HexoDSP.ChainProps.chain_wired",
    "HexoDSP.ChainProps.bad_names_change_nothing",
    "HexoDSP.ChainProps.unknown_node_then_param_panics",
    "HexoDSP.ChainProps.error_returned_once",
    "HexoDSP.ChainProps.centre_chain_collapses"
   ],
   "note": "All directions but C (where all cells fall on one place, centre_chain_collapses); start positions below 2^31. Two limits of the error report are shown as theorems."
  },
  {
   "property": "C73",
   "status": "partial",
   "theorems": [
    "HexoDSP.ChainProps.first_gets_unused",
    "HexoDSP.ChainProps.own_nodes_partial",
    "HexoDSP.ChainProps.params_set_partial",
    "HexoDSP.ChainProps.other_params_kept",
    "HexoDSP.ChainProps.params_on_other_node",
    "HexoDSP.ChainProps.second_node_in_use",
    "HexoDSP.ChainProps.chains_share_nodes",
    "HexoDSP.ChainGivenProps.params_given",
    "HexoDSP.ChainGivenProps.no_cell_panics"
   ],
   "note": "The claim is false of the code: parameters are set on instance 0 of the type, only the first cell of a type is checked to be unused, and chains placed without sync in between share nodes. What holds is proved."
  },
  {
   "property": "C37",
   "status": "partial",
   "theorems": [
    "HexoDSP.SynthProps.upload_outcome",
    "HexoDSP.SynthProps.upload_ok_iff",
    "HexoDSP.SynthProps.network_is_read",
    "HexoDSP.SynthProps.self_reading_never_read",
    "HexoDSP.SynthProps.self_reading_not_rejected",
    "HexoDSP.SynthProps.cycle_overflows",
    "HexoDSP.SynthProps.rejected_network_stays"
   ],
   "note": "Proved for every history and every network that can be read (all that do not share their lists of operations in a circle). Negations: a node that is its own input exhausts the call stack instead of being rejected, and a rejected network makes later ones fail."
  },
  {
   "property": "C74",
   "status": "proved",
   "theorems": [
    "HexoDSP.SynthProps.network_plays",
    "HexoDSP.SynthProps.block_computes_network"
   ],
   "note": "Requires room in the message queue and at most 256 nodes after each call. What is known includes the nodes and connections of earlier uploads."
  },
  {
   "property": "C75",
   "status": "partial",
   "theorems": [
    "HexoDSP.SynthProps.update_only_sets",
    "HexoDSP.SynthProps.updated_network_plays",
    "HexoDSP.SynthProps.block_computes_updated",
    "HexoDSP.SynthProps.network_plays",
    "HexoDSP.SynthProps.update_ignores_inputs",
    "HexoDSP.SynthProps.update_adds_node",
    "HexoDSP.SynthProps.update_after_rejection"
   ],
   "note": "Parameters are set as reported. Negations: new inputs are ignored contrary to the documentation, a node that is not in the network joins the next one, and after a rejected call a modulation amount can be reported as set that is not played."
  },
  {
   "property": "C18",
   "status": "partial",
   "theorems": [
    "HexoDSP.PatchProps.patch_round_trip_partial",
    "HexoDSP.PatchProps.values_restored",
    "HexoDSP.PatchProps.load_never_panics",
    "HexoDSP.PatchProps.amount_without_value_lost",
    "HexoDSP.PatchProps.unset_pattern_stays",
    "HexoDSP.PatchProps.far_pattern_not_saved",
    "HexoDSP.PatchProps.clipped_value_changes"
   ],
   "note": "Round trip between any two reachable matrices, for any conversion of parameters, pattern data and block functions. Negations: amounts of inputs without a value are lost, unset patterns do not replace those of the target, patterns above 127 behind a gap are not saved, values outside the range are changed."
  },
  {
   "property": "C76",
   "status": "partial",
   "theorems": [
    "HexoDSP.PatchProps.grid_plays",
    "HexoDSP.PatchProps.rejected_amount_stays"
   ],
   "note": "Requires room in the message queue and at most 256 nodes after each call. Parameters are those the engine shows to its nodes (C15 says when a value set arrives). Negation: a rejected set_param_modamt leaves the amount changed."
  },
  {
   "property": "C77",
   "status": "proved",
   "theorems": [
    "HexoDSP.PatchProps.loaded_patch_plays"
   ],
   "note": "Same premises as C76."
  },
  {
   "property": "C78",
   "status": "partial",
   "theorems": [
    "HexoDSP.PatchProps.clear_never_panics",
    "HexoDSP.PatchProps.sync_never_panics_partial",
    "HexoDSP.PatchProps.sync_panics_over_capacity",
    "HexoDSP.PatchProps.input_32_panics"
   ],
   "note": "Negations: an input port number 32 on the grid makes sync panic, and so does a node that leads to more than 64 others."
  },
  {
   "property": "C79",
   "status": "partial",
   "theorems": [
    "HexoDSP.SamplProps.playback_never_panics",
    "HexoDSP.SamplProps.reads_inside",
    "HexoDSP.SamplProps.blocks_do_not_matter",
    "HexoDSP.SamplProps.loop_plays",
    "HexoDSP.SamplProps.one_shot_plays_partial",
    "HexoDSP.SamplProps.one_shot_plays_past_end",
    "HexoDSP.SamplProps.one_shot_never_ends",
    "HexoDSP.SamplProps.one_shot_waits"
   ],
   "note": "loop mode is proved as stated; one shot mode plays one value of the beginning after the end, and never ends if one frame advances by the length of the part; the interpolation of the external crate and the trigger detection are arbitrary"
  },
  {
   "property": "C80",
   "status": "partial",
   "theorems": [
    "HexoDSP.SamplProps.output_bounded",
    "HexoDSP.SamplProps.retrigger_smooth",
    "HexoDSP.SamplProps.trigger_from_silence",
    "HexoDSP.SamplProps.declick_never_panics_partial",
    "HexoDSP.SamplProps.declick_panics_fast",
    "HexoDSP.SamplProps.declick_panics_shrink"
   ],
   "note": "debug builds panic when the play head skips the end or the part shrinks while playing"
  },
  {
   "property": "C81",
   "status": "partial",
   "theorems": [
    "HexoDSP.BlockCompileProps.blocks_keep_ports_partial"
   ],
   "note": "Proved for all histories of calls whose fillers of split chains have one row and no areas and whose clones do not go into an area made by the call itself (the conditions of C38), and libraries whose nodes have a port."
  },
  {
   "property": "C82",
   "status": "partial",
   "theorems": [
    "HexoDSP.BlockCompileProps.compiled_faithfully_partial",
    "HexoDSP.BlockCompileProps.shifted_inputs_break",
    "HexoDSP.BlockCompileProps.cut_names_break",
    "HexoDSP.BlockCompileProps.clash_breaks",
    "HexoDSP.BlockCompileProps.if_never_compiles",
    "HexoDSP.BlockCompileProps.no_output_no_value"
   ],
   "note": "Proved for all reachable programs, libraries, machines and states, if the values are numbers, the variables have ordinary names, inputs are not shifted out of the order of their type, the names of the ports of library nodes differ in their first two letters and there is no block `if`. Each of these conditions is needed: the other theorems show diagrams for which the compiled program is wrong or does not compile, and one whose value is a variable that is never set."
  },
  {
   "property": "C83",
   "status": "partial",
   "theorems": [
    "HexoDSP.BlockCompileProps.called_once_partial"
   ],
   "note": "Under the conditions of C82."
  },
  {
   "property": "C84",
   "status": "partial",
   "theorems": [
    "HexoDSP.CodeProps.checked_code_plays_partial",
    "HexoDSP.CodeProps.nodes_apart",
    "HexoDSP.CodeProps.failed_check_forgotten",
    "HexoDSP.CodeProps.taken_chain_plays",
    "HexoDSP.CodeProps.new_node_silent"
   ],
   "note": "Proved for all histories in which no earlier check of the node failed, no chain was taken out of its diagram and it was made only once, for diagrams as in C82. The other theorems show that each condition is needed: after a failed check the next one says Ok although the old program plays, taking out a chain is not noticed, a node made again plays nothing."
  },
  {
   "property": "C85",
   "status": "partial",
   "theorems": [
    "HexoDSP.ScopeNodeProps.slow_points_partial",
    "HexoDSP.ScopeNodeProps.slow_times",
    "HexoDSP.ScopeNodeProps.fast_points",
    "HexoDSP.ScopeNodeProps.frozen_until_trigger",
    "HexoDSP.ScopeNodeProps.restarts_on_trigger",
    "HexoDSP.ScopeNodeProps.first_point_wrong",
    "HexoDSP.ScopeNodeProps.stale_window",
    "HexoDSP.ScopeNodeProps.time_range_wrong"
   ],
   "note": "Over the rationals. Proved for all signals smaller than 99999, all triggers and all block sizes: for points of one sample or more with arbitrary changes of the settings (the very first point of a scope also shows a zero), for points shorter than a sample with constant settings. The other theorems show that the very first point is wrong, that a window is resumed after a change between the two modes, and that the time range is up to twice the set one."
  },
  {
   "property": "C86",
   "status": "partial",
   "theorems": [
    "HexoDSP.RoundingProps.rounded_in_range",
    "HexoDSP.RoundingProps.rounded_stays",
    "HexoDSP.RoundingProps.rounded_in_order",
    "HexoDSP.RoundingProps.rounded_to_mark_partial",
    "HexoDSP.RoundingProps.unrounded",
    "HexoDSP.RoundingProps.short_filter_time"
   ],
   "note": "Over the real numbers. Range, stability and order are proved for every parameter; the marks for all but coarse rounding of the filter times of allp and comb below half a millisecond, that all become 0.2 ms (short_filter_time)."
  },
  {
   "property": "C87",
   "status": "partial",
   "theorems": [
    "HexoDSP.TSeqProps.pattern_heard_partial",
    "HexoDSP.TSeqProps.block_works",
    "HexoDSP.TSeqProps.phase_mode",
    "HexoDSP.TSeqProps.row_mode",
    "HexoDSP.TSeqProps.pattern_mode",
    "HexoDSP.TSeqProps.row_of_clock",
    "HexoDSP.TSeqProps.row_begins_late",
    "HexoDSP.TSeqProps.display",
    "HexoDSP.TSeqProps.first_gate_draws",
    "HexoDSP.TSeqProps.empty_block_panics"
   ],
   "note": "The whole way from edits of the pattern to the outputs of the node. Partial: only columns changed after the last change of the number of rows and the last re-creation of the node (see C33), at the very beginning of a row the row before is still heard (row_begins_late), and a block without frames panics (empty_block_panics). The clock, trigger detector and random generator are arbitrary machines; the clock is assumed to stay between 0 and its limit."
  },
  {
   "property": "C88",
   "status": "partial",
   "theorems": [
    "HexoDSP.RndWkProps.target_in_range_partial",
    "HexoDSP.RndWkProps.step_bounded",
    "HexoDSP.RndWkProps.stays_in_range_partial",
    "HexoDSP.RndWkProps.output_unipolar",
    "HexoDSP.RndWkProps.no_step_no_randomness",
    "HexoDSP.RndWkProps.starts_below_range",
    "HexoDSP.RndWkProps.narrow_range_left",
    "HexoDSP.RndWkProps.offset_not_minimal"
   ],
   "note": "Partial: the range must be at least 0.0001 wide (narrow_range_left), the walker starts at 0, also outside its range (starts_below_range), and the offset is not the minimal step the help text promises (offset_not_minimal). The slew limiter of synfx_dsp is assumed to move between its value and its target; numbers are rationals."
  },
  {
   "property": "C89",
   "status": "partial",
   "theorems": [
    "HexoDSP.SinProps.block_ends_partial",
    "HexoDSP.SinProps.modulation_hangs",
    "HexoDSP.SinProps.phase_is_sum",
    "HexoDSP.SinProps.heard_in_tune",
    "HexoDSP.SinProps.nearest_exists"
   ],
   "note": "Partial: with a phase modulation below -2^25 the loop that wraps the phase never ends and the audio thread hangs (modulation_hangs); from -2^24 on it ends (block_ends_partial). These two use f32 arithmetic with any rounding to the nearest; phase_is_sum and heard_in_tune use exact numbers (C138 says how far f32 numbers lead away from them)."
  },
  {
   "property": "C90",
   "status": "partial",
   "theorems": [
    "HexoDSP.PatchTimedProps.knob_heard_partial",
    "HexoDSP.PatchTimedProps.turn_then_hear_partial",
    "HexoDSP.PatchTimedProps.loaded_at_once"
   ],
   "note": "Partial: at most 40 parameters of playing nodes may move at the same time, and the matrix may be cleared or loaded into only while none moves (the limits are real: see the negations of C15). Room for messages is assumed. loaded_at_once: after loading, the values do not move and do not count."
  },
  {
   "property": "C91",
   "status": "partial",
   "theorems": [
    "HexoDSP.IoProps.recording",
    "HexoDSP.IoProps.no_out_silence",
    "HexoDSP.IoProps.only_out",
    "HexoDSP.IoProps.straight_through",
    "HexoDSP.IoProps.default_volume",
    "HexoDSP.IoProps.unity",
    "HexoDSP.IoProps.switch_on",
    "HexoDSP.IoProps.outs_not_mixed",
    "HexoDSP.IoProps.amp_modulates",
    "HexoDSP.IoProps.amp_attenuates_partial",
    "HexoDSP.IoProps.amp_amplifies"
   ],
   "note": "recording covers the whole of test_run_input for every reachable state. Two parts of the property are false of the code: two Out nodes are not mixed but the last one of the program is heard (outs_not_mixed), and the attenuator of Amp amplifies when a signal above 1 is plugged into it (amp_amplifies; amp_attenuates_partial is the true part). Signals are real numbers."
  },
  {
   "property": "C92",
   "status": "proved",
   "theorems": [
    "HexoDSP.FormFMProps.bounded",
    "HexoDSP.FormFMProps.unit_range",
    "HexoDSP.FormFMProps.split",
    "HexoDSP.FormFMProps.formant_tone",
    "HexoDSP.FormFMProps.periodic",
    "HexoDSP.FormFMProps.sweep_smooth",
    "HexoDSP.FormFMProps.envelope",
    "HexoDSP.FormFMProps.envelope_mono"
   ],
   "note": "Over the real numbers, without rounding. run_get in the same file gives every sample in closed form."
  },
  {
   "property": "C93",
   "status": "partial",
   "theorems": [
    "HexoDSP.SFilterProps.stretch",
    "HexoDSP.SFilterProps.only_in_range",
    "HexoDSP.SFilterProps.unknown_repeats"
   ],
   "note": "The filter functions are arbitrary. The last sentence of the property is false: a setting that names no type leaves the output buffer as it is, the last block is heard again and again (unknown_repeats)."
  },
  {
   "property": "C94",
   "status": "partial",
   "theorems": [
    "HexoDSP.BiqFiltProps.current",
    "HexoDSP.BiqFiltProps.stretch",
    "HexoDSP.BiqFiltProps.new_rate",
    "HexoDSP.BiqFiltProps.no_fault_iff",
    "HexoDSP.BiqFiltProps.order_panics",
    "HexoDSP.BiqFiltProps.gain_ignored"
   ],
   "note": "The filters are arbitrary. Two parts of the property are false: an order setting above 3 makes the audio thread panic (order_panics; no_fault_iff says exactly which settings do), and the gain has no influence on the sound (gain_ignored)."
  },
  {
   "property": "C95",
   "status": "partial",
   "theorems": [
    "HexoDSP.FVaFiltProps.current_partial",
    "HexoDSP.FVaFiltProps.current_two_partial",
    "HexoDSP.FVaFiltProps.mode_lost"
   ],
   "note": "The filters are arbitrary. False as it stands: a ladder mode that is turned while another filter is selected is lost (mode_lost); current_partial proves the property for all histories in which this does not happen."
  },
  {
   "property": "C96",
   "status": "partial",
   "theorems": [
    "HexoDSP.RustNodeProps.sounds",
    "HexoDSP.RustNodeProps.none_iff",
    "HexoDSP.RustNodeProps.swapped",
    "HexoDSP.RustNodeProps.first_use",
    "HexoDSP.RustNodeProps.remade_silent",
    "HexoDSP.RustNodeProps.old_unreached",
    "HexoDSP.RustNodeProps.separate",
    "HexoDSP.RustNodeProps.not_told",
    "HexoDSP.RustNodeProps.rate_false",
    "HexoDSP.RustNodeProps.reset_false"
   ],
   "note": "The last sentence of the property is false: the sample rate and resets never reach the code (not_told, rate_false, reset_false), and a node that is made again starts with silent code (remade_silent). The triple buffer is modelled as a single cell with a pending value; the last value written is the one read."
  },
  {
   "property": "C97",
   "status": "partial",
   "theorems": [
    "HexoDSP.CutProps.frame_by_frame_partial",
    "HexoDSP.CutProps.cuts_inaudible_partial",
    "HexoDSP.CutProps.twins_agree_partial",
    "HexoDSP.CutProps.twins_calls_partial",
    "HexoDSP.CutProps.cuts_audible",
    "HexoDSP.CutProps.biquad_audible"
   ],
   "note": "Proved for all nodes that work frame by frame on a state of their own (frameRun). False for nodes that look at a parameter once in a block (cuts_audible), of which the biquad filter is one (biquad_audible). Nodes that share memory (feedback delay, scopes, the audio driver) are not frame-wise in this sense."
  },
  {
   "property": "C98",
   "status": "partial",
   "theorems": [
    "HexoDSP.ManyProps.at_most_256_nodes_run",
    "HexoDSP.ManyProps.some_node_left_out",
    "HexoDSP.ManyProps.runs_iff",
    "HexoDSP.ManyProps.every_node_runs_partial"
   ],
   "note": "False: after any history a block runs at most 256 nodes, so of more than 256 nodes some are left out silently. runs_iff says exactly which ones; every_node_runs_partial is the property for up to 256 nodes."
  },
  {
   "property": "C99",
   "status": "proved",
   "theorems": [
    "HexoDSP.NoiseProps.plays_the_generator",
    "HexoDSP.NoiseProps.reset_starts_over",
    "HexoDSP.NoiseProps.seeds_differ",
    "HexoDSP.NoiseProps.bipolar_range",
    "HexoDSP.NoiseProps.unipolar_range"
   ],
   "note": "The generator is an arbitrary machine whose seed sets its whole state; the ranges assume that it gives numbers from 0 to 1."
  },
  {
   "property": "C100",
   "status": "partial",
   "theorems": [
    "HexoDSP.DelayProps.dry_is_the_input",
    "HexoDSP.DelayProps.wet_is_the_delayed_input",
    "HexoDSP.DelayProps.wet_comes_later",
    "HexoDSP.DelayProps.wet_follows_the_clock",
    "HexoDSP.DelayProps.stays_bounded_partial",
    "HexoDSP.DelayProps.full_feedback_grows"
   ],
   "note": "The last part is false: with the feedback at 1, the end of the knob, the output grows without bound (full_feedback_grows). stays_bounded_partial is the bound for feedback below one. Delay line and mixer are external; what is assumed of them is in Spec/Delay.lean and met by an example."
  },
  {
   "property": "C101",
   "status": "partial",
   "theorems": [
    "HexoDSP.ExtParamProps.follows_the_host_partial",
    "HexoDSP.ExtParamProps.missing_set_is_A",
    "HexoDSP.ExtParamProps.get_missing",
    "HexoDSP.ExtParamProps.stale_without_host",
    "HexoDSP.ExtParamProps.reset_ignored",
    "HexoDSP.ExtParamProps.rate_ignored",
    "HexoDSP.ExtParamProps.reset_false"
   ],
   "note": "The last three parts are false: without a host the outputs keep the stale contents of their buffers (stale_without_host), and reset and sample rate are ignored (reset_ignored, rate_ignored, reset_false). follows_the_host_partial and missing_set_is_A are the rest."
  },
  {
   "property": "C102",
   "status": "proved",
   "theorems": [
    "HexoDSP.EnvProps.ad_scales",
    "HexoDSP.EnvProps.ad_is_input_times_envelope",
    "HexoDSP.EnvProps.ad_knobs",
    "HexoDSP.EnvProps.ad_shapes",
    "HexoDSP.EnvProps.ad_factor",
    "HexoDSP.EnvProps.ad_graph_range",
    "HexoDSP.EnvProps.ad_graph_peak",
    "HexoDSP.EnvProps.ad_graph_rises",
    "HexoDSP.EnvProps.ad_graph_falls",
    "HexoDSP.EnvProps.adsr_scales",
    "HexoDSP.EnvProps.adsr_is_input_times_envelope",
    "HexoDSP.EnvProps.adsr_knobs",
    "HexoDSP.EnvProps.adsr_shapes",
    "HexoDSP.EnvProps.adsr_factor",
    "HexoDSP.EnvProps.adsr_graph_repeats",
    "HexoDSP.EnvProps.adsr_graph_plays",
    "HexoDSP.EnvProps.ad_reset_forgets",
    "HexoDSP.EnvProps.adsr_reset_forgets"
   ],
   "note": "The envelope generators and the curve are external: arbitrary for the nodes; for the graphs a curve from 0 to 1 that does not fall, and a reset that forgets."
  },
  {
   "property": "C103",
   "status": "partial",
   "theorems": [
    "HexoDSP.DropThreadProps.freed_once",
    "HexoDSP.DropThreadProps.freed_in_order",
    "HexoDSP.DropThreadProps.all_freed_at_the_end",
    "HexoDSP.DropThreadProps.audio_thread_frees_nothing_partial",
    "HexoDSP.DropThreadProps.audio_thread_frees",
    "HexoDSP.DropThreadProps.drop_returns_partial",
    "HexoDSP.DropThreadProps.drop_may_not_return"
   ],
   "note": "Two parts are false: what does not fit into the queue while the drop thread sleeps is freed by the audio thread (audio_thread_frees), and if the audio thread keeps the queue filled the drop thread never looks at its flag and dropping the frontend does not return (drop_may_not_return). The two _partial theorems give the conditions under which these parts hold."
  },
  {
   "property": "C104",
   "status": "proved",
   "theorems": [
    "HexoDSP.OscProps.b_in_tune",
    "HexoDSP.OscProps.b_waveform_keeps_phase",
    "HexoDSP.OscProps.b_pulse_width",
    "HexoDSP.OscProps.v_in_tune",
    "HexoDSP.OscProps.v_settings_keep_phase",
    "HexoDSP.OscProps.v_new_is_four_times_too_fast",
    "HexoDSP.OscProps.v_limits",
    "HexoDSP.OscProps.v_safe_arguments"
   ],
   "note": "In exact arithmetic. The oscillators of synfx_dsp are external; that each of their functions moves the phase by frequency over rate is an assumption (Spec/Osc.lean), met by an example. A VOsc that never got a sample rate would be two octaves too high (v_new_is_four_times_too_fast); the engine always sets it."
  },
  {
   "property": "C105",
   "status": "proved",
   "theorems": [
    "HexoDSP.BowStriProps.one_period",
    "HexoDSP.BowStriProps.fits_the_delay",
    "HexoDSP.BowStriProps.bow_position_mono",
    "HexoDSP.BowStriProps.correction",
    "HexoDSP.BowStriProps.stays_bounded",
    "HexoDSP.BowStriProps.silent_without_bow"
   ],
   "note": "In exact arithmetic. Delay lines and filters are external; what is assumed of them is in Spec/BowStri.lean and met by an example. The interpolation of the real delay line can overshoot, which the assumption excludes."
  },
  {
   "property": "C106",
   "status": "proved",
   "theorems": [
    "HexoDSP.QuantProps.octave_transposes",
    "HexoDSP.QuantProps.only_selected_notes",
    "HexoDSP.QuantProps.run_length",
    "HexoDSP.QuantProps.reset_keeps_pitch",
    "HexoDSP.QuantProps.triggers_follow_the_pitch",
    "HexoDSP.QuantProps.shown_key",
    "HexoDSP.QuantProps.own_ports"
   ],
   "note": "The quantizers and the change detector of synfx_dsp are external: arbitrary, except that for only_selected_notes the quantizer gives notes of its keys."
  },
  {
   "property": "C107",
   "status": "proved",
   "theorems": [
    "HexoDSP.ReverbProps.lfo_range",
    "HexoDSP.ReverbProps.lfo_trigger_starts_over",
    "HexoDSP.ReverbProps.lfo_reset_starts_over",
    "HexoDSP.ReverbProps.lfo_period",
    "HexoDSP.ReverbProps.lfo_frequency",
    "HexoDSP.ReverbProps.comb_silent",
    "HexoDSP.ReverbProps.comb_reset_starts_over",
    "HexoDSP.ReverbProps.verb_mono",
    "HexoDSP.ReverbProps.verb_dry",
    "HexoDSP.ReverbProps.verb_wet",
    "HexoDSP.ReverbProps.verb_silent"
   ],
   "note": "The oscillator, delay lines, reverb and crossfade of synfx_dsp are external: arbitrary, except for the properties in Spec/Reverb.lean. The help text of the LFO promises up to 30 s; the code allows 300 s, which is what is proved."
  },
  {
   "property": "C108",
   "status": "partial",
   "theorems": [
    "HexoDSP.LabelProps.edge_text",
    "HexoDSP.LabelProps.mark_is_wire_partial",
    "HexoDSP.LabelProps.mark_without_wire",
    "HexoDSP.LabelProps.cell_label_identifies",
    "HexoDSP.LabelProps.cell_label_fits",
    "HexoDSP.LabelProps.offs_dir_back",
    "HexoDSP.LabelProps.for_each_cells"
   ],
   "note": "The marks are not always truthful (mark_without_wire: an edge into an empty cell with an input left in it is marked). What holds is mark_is_wire_partial, for grids whose empty cells have no inputs. Everything else is proved in full."
  },
  {
   "property": "C109",
   "status": "proved",
   "theorems": [
    "HexoDSP.NodeListProps.category_lists",
    "HexoDSP.NodeListProps.one_category",
    "HexoDSP.NodeListProps.pages",
    "HexoDSP.NodeListProps.random_nodes",
    "HexoDSP.NodeListProps.random_complete",
    "HexoDSP.NodeListProps.random_at_most_100"
   ],
   "note": "The random number source is an arbitrary sequence of numbers."
  },
  {
   "property": "C110",
   "status": "partial",
   "theorems": [
    "HexoDSP.FreeOutputProps.found_is_last",
    "HexoDSP.FreeOutputProps.found_iff_partial",
    "HexoDSP.FreeOutputProps.first_slot_overlooked"
   ],
   "note": "The English property is false: a free output in the first slot is overlooked (first_slot_overlooked). found_iff_partial says that this is the only one."
  },
  {
   "property": "C111",
   "status": "partial",
   "theorems": [
    "HexoDSP.StatusProps.storing_never_panics",
    "HexoDSP.StatusProps.unknown_is_zero",
    "HexoDSP.StatusProps.asking_panics_iff",
    "HexoDSP.StatusProps.node_257_panics",
    "HexoDSP.StatusProps.stale_after_clear",
    "HexoDSP.StatusProps.shown_is_stored_partial"
   ],
   "note": "The English property is false: asking for a node created when there were 256 already panics (asking_panics_iff, node_257_panics), and after clearing, new nodes show the values of nodes that are gone (stale_after_clear). shown_is_stored_partial holds for all histories without clearing and with at most 256 nodes."
  },
  {
   "property": "C112",
   "status": "partial",
   "theorems": [
    "HexoDSP.RobustProps.taking_never_panics_partial",
    "HexoDSP.RobustProps.block_panics_iff",
    "HexoDSP.RobustProps.idle_block_never_panics",
    "HexoDSP.RobustProps.lost_program_panics"
   ],
   "note": "The full statement is false: lost_program_panics shows that a program refused by a full queue, followed by a change of a setting of its node, makes the audio thread panic (index out of range); C15 deleting_while_moving_panics and C54 monitoring_idle_node_panics show two more ways. taking_never_panics_partial: taking messages never panics if no upload was refused. block_panics_iff: after any history a block panics for exactly five reasons. idle_block_never_panics: without set_param of inputs and without monitoring it never does. The model rejects every block of zero frames; the code does so as soon as a node has an output."
  },
  {
   "property": "C113",
   "status": "partial",
   "theorems": [
    "HexoDSP.TestNodeProps.only_first_press",
    "HexoDSP.TestNodeProps.other_outputs",
    "HexoDSP.TestNodeProps.pulse_per_press_partial",
    "HexoDSP.TestNodeProps.second_press_silent",
    "HexoDSP.TestNodeProps.down_from_one"
   ],
   "note": "The full statement is false: the node never notices that trig went back, so the second press gives no pulse, not even after a reset (second_press_silent, only_first_press). pulse_per_press_partial is the first press; other_outputs holds always."
  },
  {
   "property": "C114",
   "status": "proved",
   "theorems": [
    "HexoDSP.GraphProps.bosc_own",
    "HexoDSP.GraphProps.vosc_own",
    "HexoDSP.GraphProps.tslfo_own",
    "HexoDSP.GraphProps.bosc_margin",
    "HexoDSP.GraphProps.vosc_inside",
    "HexoDSP.GraphProps.tslfo_first"
   ],
   "note": "The oscillators are those of the crate synfx_dsp; assumed of them, as hypotheses met by examples, is that a reset forgets the past and that they stay in their range."
  },
  {
   "property": "C115",
   "status": "proved",
   "theorems": [
    "HexoDSP.CodeNodeProps.block_plays",
    "HexoDSP.CodeNodeProps.sent_is_played",
    "HexoDSP.CodeNodeProps.cut_anywhere",
    "HexoDSP.CodeNodeProps.no_backend",
    "HexoDSP.CodeNodeProps.whole_history"
   ],
   "note": "The just in time compiled code is an arbitrary machine. cut_anywhere is about two blocks with nothing between them, anywhere in any history."
  },
  {
   "property": "C116",
   "status": "proved",
   "theorems": [
    "HexoDSP.BuilderProps.built_is_typed",
    "HexoDSP.BuilderProps.built_is_written",
    "HexoDSP.BuilderProps.upload_only_cycles"
   ],
   "note": "Compiling is modelled as the methods the macro makes for each row of the node table. With C37 upload_ok_iff: an upload is rejected exactly if the known nodes form a cycle (or the call stack is exhausted, see C37)."
  },
  {
   "property": "C117",
   "status": "partial",
   "theorems": [
    "HexoDSP.ObserverProps.notes_of_every_call",
    "HexoDSP.ObserverProps.properties_and_cells_shown",
    "HexoDSP.ObserverProps.amounts_shown_partial",
    "HexoDSP.ObserverProps.values_and_monitor_shown_partial",
    "HexoDSP.ObserverProps.generation_tells_partial",
    "HexoDSP.ObserverProps.amount_change_untold",
    "HexoDSP.ObserverProps.monitored_untold",
    "HexoDSP.ObserverProps.value_untold",
    "HexoDSP.ObserverProps.generation_misses_amount"
   ],
   "note": "False of the code in three places, all in set_param_modamt: changing an amount to another one is not announced; the silent synchronisation when an amount appears or vanishes can change the monitored cell, give parameters values and play unpublished cells without announcement; if it fails because of a loop the amount is changed but not the generation. The rest is proved for all histories."
  },
  {
   "property": "C118",
   "status": "partial",
   "theorems": [
    "HexoDSP.CuttingProps.noise",
    "HexoDSP.CuttingProps.delay",
    "HexoDSP.CuttingProps.ad",
    "HexoDSP.CuttingProps.adsr",
    "HexoDSP.CuttingProps.bosc",
    "HexoDSP.CuttingProps.vosc",
    "HexoDSP.CuttingProps.sin",
    "HexoDSP.CuttingProps.formFM",
    "HexoDSP.CuttingProps.bowStri",
    "HexoDSP.CuttingProps.tsLFO",
    "HexoDSP.CuttingProps.comb",
    "HexoDSP.CuttingProps.verb",
    "HexoDSP.CuttingProps.rndWk",
    "HexoDSP.CuttingProps.extParam",
    "HexoDSP.CuttingProps.quant",
    "HexoDSP.CuttingProps.mux9",
    "HexoDSP.CuttingProps.sfilter",
    "HexoDSP.CuttingProps.test",
    "HexoDSP.CuttingProps.biquad_partial",
    "HexoDSP.CuttingProps.fvafilt",
    "HexoDSP.CuttingProps.sampl",
    "HexoDSP.CuttingProps.midiP",
    "HexoDSP.CuttingProps.midiCC",
    "HexoDSP.CuttingProps.tracker_partial",
    "HexoDSP.CuttingProps.scope",
    "HexoDSP.CuttingProps.tracker_audible",
    "HexoDSP.CuttingProps.tracker_not_seamless"
   ],
   "note": "False of the code for the biquad filter, which looks at its parameters in the first frame of a block only (proved while they stay), and for a tracker with two gate columns, which share one random generator and draw from it column by column, so that the cut is heard (proved for at most one gate column while no edits arrive). Proved for the other nodes; the DSP library is assumed to keep its keys and thresholds when they are set again."
  },
  {
   "property": "C119",
   "status": "partial",
   "theorems": [
    "HexoDSP.RateProps.played_at_rate_partial",
    "HexoDSP.RateProps.right_again_partial",
    "HexoDSP.RateProps.rate_first",
    "HexoDSP.RateProps.spare_node_wrong",
    "HexoDSP.RateProps.gap_node_wrong",
    "HexoDSP.RateProps.node_on_its_way_wrong",
    "HexoDSP.RateProps.node_in_creation_wrong",
    "HexoDSP.RateProps.not_all_know"
   ],
   "note": "False of the code: only the nodes of the program playing in that moment are told of a change. A node that was taken out of the patch, one the matrix created to fill a gap in the numbering, one whose program is on its way and one that is being created keep the old sample rate. Proved: a node that misses no change since its creation, or since a change it heard of, knows the sample rate; setting it before the first node is created is always right."
  },
  {
   "property": "C120",
   "status": "partial",
   "theorems": [
    "HexoDSP.BlockViewProps.rest_kept",
    "HexoDSP.BlockViewProps.text_read_iff_partial",
    "HexoDSP.BlockViewProps.long_text_panics",
    "HexoDSP.BlockViewProps.huge_text_lost",
    "HexoDSP.BlockViewProps.label_partial",
    "HexoDSP.BlockViewProps.input_labels_partial",
    "HexoDSP.BlockViewProps.output_labels_partial",
    "HexoDSP.BlockViewProps.last_definition",
    "HexoDSP.BlockViewProps.type_list",
    "HexoDSP.BlockViewProps.output_names",
    "HexoDSP.BlockViewProps.type_ports",
    "HexoDSP.BlockViewProps.unknown_type",
    "HexoDSP.BlockViewProps.identifiers_listed",
    "HexoDSP.BlockViewProps.areas_seen",
    "HexoDSP.BlockViewProps.label_panics_in_program"
   ],
   "note": "False of the code for texts that do not fit: the length returned is then beyond the end of the buffer, so that reading it back panics; a text of 8192 bytes or more reads as empty even if it fits. Exactly the other texts are read back right. The palette is proved as stated."
  },
  {
   "property": "C121",
   "status": "partial",
   "theorems": [
    "HexoDSP.ResetProps.noise_forgets",
    "HexoDSP.ResetProps.sin_forgets",
    "HexoDSP.ResetProps.formfm_forgets",
    "HexoDSP.ResetProps.sfilter_forgets",
    "HexoDSP.ResetProps.delay_forgets",
    "HexoDSP.ResetProps.bosc_forgets",
    "HexoDSP.ResetProps.vosc_forgets",
    "HexoDSP.ResetProps.tslfo_forgets",
    "HexoDSP.ResetProps.bowstri_forgets",
    "HexoDSP.ResetProps.quant_forgets",
    "HexoDSP.ResetProps.biqfilt_forgets_partial",
    "HexoDSP.ResetProps.biqfilt_remembers",
    "HexoDSP.ResetProps.fvafilt_remembers",
    "HexoDSP.ResetProps.mux9_remembers",
    "HexoDSP.ResetProps.midicc_remembers",
    "HexoDSP.ResetProps.midip_remembers",
    "HexoDSP.ResetProps.sampl_remembers",
    "HexoDSP.ResetProps.rndwk_remembers",
    "HexoDSP.ResetProps.test_remembers",
    "HexoDSP.ResetProps.ext_remembers",
    "HexoDSP.ResetProps.tseq_reset_silences"
   ],
   "note": "True of noise, sine, formant oscillator, simple filter, delay, both oscillators, LFO, bowed string and quantizers (given that the parts from synfx_dsp are made new by their own resets). False of multiplexer, MIDI notes, MIDI controllers, sample player, random walk, test node, host parameters, the vadim filters (a mode set while another filter played), and of the biquad filter within its tolerance of 1/10000, with counterexamples. The tracker sequencer is silent for ever after a reset. Not covered: the nodes that consist of one part of synfx_dsp (envelopes, comb, all-pass, reverb), where the claim is that of the part."
  },
  {
   "property": "C122",
   "status": "partial",
   "theorems": [
    "HexoDSP.IsolateProps.upstream_decides_partial",
    "HexoDSP.IsolateProps.histories_agree_partial",
    "HexoDSP.IsolateProps.rest_same_way",
    "HexoDSP.IsolateProps.turn_same_way",
    "HexoDSP.IsolateProps.blocks_same_way",
    "HexoDSP.IsolateProps.elsewhere_heard",
    "HexoDSP.IsolateProps.listener_heard"
   ],
   "note": "Proved for nodes that ignore what is connected to their outputs, whose parameters have the same ways (C123) before them: at rest (rest_same_way), or turned alike (turn_same_way, blocks_same_way). False otherwise: the test node hears whether something listens to it (listener_heard), and a new program somewhere else makes a moving parameter jump when it is set again before the next block (elsewhere_heard)."
  },
  {
   "property": "C123",
   "status": "proved",
   "theorems": [
    "HexoDSP.RideProps.knob_course",
    "HexoDSP.RideProps.knob_arrives",
    "HexoDSP.RideProps.knob_sounds",
    "HexoDSP.RideProps.turn_continues",
    "HexoDSP.RideProps.line_straight",
    "HexoDSP.RideProps.turn_after_program_jumps",
    "HexoDSP.RideProps.timed_ridden"
   ],
   "note": "Exact for any arithmetic of samples; line_straight adds what the line is in exact arithmetic. turn_after_program_jumps is the counterexample to the plain expectation that a knob always goes on from where it is."
  },
  {
   "property": "C124",
   "status": "partial",
   "theorems": [
    "HexoDSP.CellDirProps.edge_number",
    "HexoDSP.CellDirProps.edge_number_centre",
    "HexoDSP.CellDirProps.menu_position_partial",
    "HexoDSP.CellDirProps.menu_position_twice"
   ],
   "note": "The numbers: proved. The menu places: true of all directions but the upper right, whose place is that of the bottom."
  },
  {
   "property": "C125",
   "status": "partial",
   "theorems": [
    "HexoDSP.FloatProps.one_way",
    "HexoDSP.FloatProps.near_line",
    "HexoDSP.FloatProps.exact_end",
    "HexoDSP.FloatProps.last_step",
    "HexoDSP.FloatProps.passes_target",
    "HexoDSP.FloatLemmas.nearest_exists"
   ],
   "note": "All but one part proved, for every rounding to the nearest f32 (nearest_exists: there is one). That the value does not pass the target is false: passes_target. Overflow and infinities are left out (values between -1 and 1 in near_line)."
  },
  {
   "property": "C126",
   "status": "proved",
   "theorems": [
    "HexoDSP.FloatNodesProps.row_selected",
    "HexoDSP.FloatNodesProps.row_monotone",
    "HexoDSP.FloatNodesProps.every_row",
    "HexoDSP.FloatNodesProps.row_wraps",
    "HexoDSP.FloatNodesProps.line_exact"
   ],
   "note": "For every rounding to the nearest f32. row_wraps shows that the limit of 256 rows (MAX_PATTERN_LEN) is needed."
  },
  {
   "property": "C127",
   "status": "partial",
   "theorems": [
    "HexoDSP.FloatNodesProps.map_stays",
    "HexoDSP.FloatNodesProps.smap_stays_partial",
    "HexoDSP.FloatNodesProps.smap_exceeds",
    "HexoDSP.FloatNodesProps.maps_exact",
    "HexoDSP.SMapFloatProps.smap_accurate"
   ],
   "note": "Map: proved for any arithmetic. SMap: false, it exceeds max by rounding (smap_exceeds), by at most 3/2^24 (smap_stays_partial)."
  },
  {
   "property": "C128",
   "status": "partial",
   "theorems": [
    "HexoDSP.FloatNodesProps.map_panics_iff",
    "HexoDSP.FloatNodesProps.rndwk_panics_iff",
    "HexoDSP.FloatNodesProps.nan_panics"
   ],
   "note": "False: NaN at min or max panics (nan_panics), because f32::clamp asserts that its bounds are ordered; NaN at the other inputs does not (the two equivalences). Infinite samples are not modelled."
  },
  {
   "property": "C129",
   "status": "proved",
   "theorems": [
    "HexoDSP.Matrix.MovedProps.sync_moved",
    "HexoDSP.Matrix.MovedProps.check_moved",
    "HexoDSP.Matrix.MovedProps.sync_forgets",
    "HexoDSP.Matrix.MovedProps.odd_shift"
   ],
   "note": "odd_shift shows that the number of columns has to be even."
  },
  {
   "property": "C130",
   "status": "partial",
   "theorems": [
    "HexoDSP.FloatNodesProps.walk_in_range_partial",
    "HexoDSP.FloatNodesProps.narrow_range_left_f32",
    "HexoDSP.FloatNodesProps.walk_exact"
   ],
   "note": "No panic: proved for all finite inputs. In range: proved for ranges at least 0.0001 wide; false of narrower ones (narrow_range_left_f32). Infinite numbers are not modelled."
  },
  {
   "property": "C131",
   "status": "partial",
   "theorems": [
    "HexoDSP.MonitorThreadProps.one_moment",
    "HexoDSP.MonitorThreadProps.never_older",
    "HexoDSP.MonitorThreadProps.up_to_date",
    "HexoDSP.MonitorThreadProps.get_returns",
    "HexoDSP.MonitorThreadProps.drop_returns_partial",
    "HexoDSP.MonitorThreadProps.drop_may_not_return",
    "HexoDSP.MonitorThreadProps.real_honest"
   ],
   "note": "All but the last part is proved. Dropping returns if the audio thread sends nothing more (drop_returns_partial); if it always sends the next buffer in time the thread never looks at the request to end (drop_may_not_return). A relaxed load may miss that the flag was set. real_honest: the monitor modelled for C22 meets the hypothesis."
  },
  {
   "property": "C132",
   "status": "partial",
   "theorems": [
    "HexoDSP.FloatSeqProps.value_near_line",
    "HexoDSP.FloatSeqProps.gate_parts",
    "HexoDSP.FloatSeqProps.flat_column_wavers",
    "HexoDSP.FloatSeqProps.interpolate_exact",
    "HexoDSP.FloatSeqProps.gate_exact"
   ],
   "note": "Range, nearness (1/30000) and the parts of gates are proved. That a flat column is played exactly is false: flat_column_wavers (the last bit)."
  },
  {
   "property": "C133",
   "status": "partial",
   "theorems": [
    "HexoDSP.MidiGateProps.never_panics",
    "HexoDSP.MidiGateProps.led_shows_gate",
    "HexoDSP.MidiGateProps.notes_any_mode",
    "HexoDSP.MidiGateProps.trigger_mode",
    "HexoDSP.MidiGateProps.midi_mode",
    "HexoDSP.MidiGateProps.gate_len_mode_partial",
    "HexoDSP.MidiGateProps.gate_len_exact",
    "HexoDSP.MidiGateProps.pause_missed",
    "HexoDSP.MidiGateProps.late_trigger"
   ],
   "note": "The pause is false if the old note is released exactly one frame before (pause_missed). A trigger may come without a note after a change of mode (late_trigger). gate_len_exact says for any events in any frames, also several in one, where the pauses are; gate_len_mode_partial says it in simpler words for the usual frames."
  },
  {
   "property": "C134",
   "status": "partial",
   "theorems": [
    "HexoDSP.FormatProps.text_truthful_partial",
    "HexoDSP.FormatProps.never_falls",
    "HexoDSP.FormatProps.hundred_cents",
    "HexoDSP.FormatProps.minus_zero"
   ],
   "note": "Value, unit and order are proved for real numbers. False: almost a semitone is shown as 100 cents (hundred_cents), small negative decibels as -0.0dB (minus_zero). Rounding of f32 before the display is not modelled."
  },
  {
   "property": "C135",
   "status": "partial",
   "theorems": [
    "HexoDSP.SettingNamesProps.named_apart_partial",
    "HexoDSP.SettingNamesProps.nearest_shown",
    "HexoDSP.SettingNamesProps.above_range",
    "HexoDSP.SettingNamesProps.negative_shown_as_zero",
    "HexoDSP.SettingNamesProps.channel_shown",
    "HexoDSP.SettingNamesProps.channel_out_of_range",
    "HexoDSP.SettingNamesProps.mult_shown",
    "HexoDSP.SettingNamesProps.inputs_shown",
    "HexoDSP.ShownModesProps.noise",
    "HexoDSP.ShownModesProps.delay",
    "HexoDSP.ShownModesProps.tseq",
    "HexoDSP.ShownModesProps.amp",
    "HexoDSP.ShownModesProps.out",
    "HexoDSP.ShownModesProps.map",
    "HexoDSP.ShownModesProps.smap",
    "HexoDSP.ShownModesProps.fvafilt",
    "HexoDSP.ShownModesProps.sampl",
    "HexoDSP.ShownModesProps.scope",
    "HexoDSP.ShownModesProps.bosc",
    "HexoDSP.ShownModesProps.vosc",
    "HexoDSP.ShownModesProps.midip",
    "HexoDSP.ShownModesProps.comb",
    "HexoDSP.ShownModesProps.sfilter",
    "HexoDSP.ShownModesProps.biqfilt",
    "HexoDSP.ShownModesProps.cqnt"
   ],
   "note": "The distortion of VOsc is named by synfx_dsp and left out. False: negative values are shown as 0 (negative_shown_as_zero), so that a MidiCC that listens to channel 15 shows 0 (channel_out_of_range). That the name fits what the node does is proved for the channel, the factor of the envelopes, the number of inputs and all modes of the nodes (HexoDSP.ShownModesProps); what the filters and waves of synfx_dsp sound like is not modelled."
  },
  {
   "property": "C136",
   "status": "partial",
   "theorems": [
    "HexoDSP.MonitoredProps.sync_shows_watched_partial",
    "HexoDSP.MonitoredProps.watch_shows_partial",
    "HexoDSP.MonitoredProps.empty_cell_still_shown",
    "HexoDSP.MonitoredProps.shown_unasked"
   ],
   "note": "False: watching an empty cell leaves the old signals on (empty_cell_still_shown), and the corner cell is watched unasked after the first sync (shown_unasked). Proved for histories in which at most 40 parameters move at a time, with room in the message queue."
  },
  {
   "property": "C137",
   "status": "partial",
   "theorems": [
    "HexoDSP.LedsProps.shows_last_partial",
    "HexoDSP.LedsProps.lights_after_block_partial",
    "HexoDSP.LedsProps.lights_kept",
    "HexoDSP.LedsProps.lights_in_block",
    "HexoDSP.LedsProps.deleted_dark",
    "HexoDSP.LedsProps.reads_panic_iff",
    "HexoDSP.LedsProps.new_node_shows_old_light",
    "HexoDSP.LedsProps.late_block_lights_new_node",
    "HexoDSP.LedsProps.read_panics"
   ],
   "note": "False after delete_nodes: a new node that has not run shows the light of the node that had its index (new_node_shows_old_light), a block of the old program lights the new node (late_block_lights_new_node), and reading the 257th node panics (read_panics; reads_panic_iff says exactly when). Proved for all histories between two delete_nodes."
  },
  {
   "property": "C138",
   "status": "proved",
   "theorems": [
    "HexoDSP.SinFloatProps.drift",
    "HexoDSP.SinFloatProps.heard_drift",
    "HexoDSP.SinFloatProps.moves",
    "HexoDSP.SinFloatProps.stands_still"
   ],
   "note": "fast_sin is external. stands_still shows that the bound on the sample rate has the right size."
  },
  {
   "property": "C139",
   "status": "partial",
   "theorems": [
    "HexoDSP.NormFloatProps.kept",
    "HexoDSP.NormFloatProps.kept_near",
    "HexoDSP.NormFloatProps.kept_range",
    "HexoDSP.NormFloatProps.settles_partial",
    "HexoDSP.NormFloatProps.changes_once",
    "HexoDSP.NormFloatProps.creeps"
   ],
   "note": "The first part is proved as stated. The second is false: some times of comb and allp creep on with every save and load (creeps, three times in a row). settles_partial proves it for the detunings and vs of vosc; for times that start at zero it is open. A detuning may really change at the first time (changes_once). Pitch, decibels and lfot use functions of libraries and are left out; C44 covers all curves with real numbers. What is written to the file is taken to be read as the same number."
  },
  {
   "property": "C140",
   "status": "partial",
   "theorems": [
    "HexoDSP.CellEditProps.edited_partial",
    "HexoDSP.CellEditProps.dir_set_iff",
    "HexoDSP.CellEditProps.copy_exact",
    "HexoDSP.CellEditProps.neighbour_listens",
    "HexoDSP.CellEditProps.multiple_exact",
    "HexoDSP.CellEditProps.multiple_restored",
    "HexoDSP.CellEditProps.multiple_alone_not_restored",
    "HexoDSP.CellEditProps.large_port_wraps"
   ],
   "note": "The documentation of place_multiple promises that the matrix is restored if placing fails. Alone it is not: the cells before the one that failed stay (multiple_alone_not_restored); inside of change_matrix_err it is (multiple_restored). A port number from 256 on is taken for another one (large_port_wraps), so edited_partial asks for smaller ones."
  },
  {
   "property": "C141",
   "status": "partial",
   "theorems": [
    "HexoDSP.PatchKeepProps.kept",
    "HexoDSP.PatchKeepProps.prop_last",
    "HexoDSP.PatchKeepProps.engine_stays",
    "HexoDSP.PatchKeepProps.engine_there",
    "HexoDSP.PatchKeepProps.engine_of_node",
    "HexoDSP.PatchKeepProps.old_pattern_stays"
   ],
   "note": "Missing because it is not true: loading a patch does not remove the patterns (and diagrams) that were there before and that the patch does not contain (old_pattern_stays). What does happen is proved exactly by kept."
  },
  {
   "property": "C142",
   "status": "proved",
   "theorems": [
    "HexoDSP.FormFMFloatProps.within",
    "HexoDSP.FormFMFloatProps.drift",
    "HexoDSP.FormFMFloatProps.moves",
    "HexoDSP.FormFMFloatProps.shaped"
   ],
   "note": "All that is assumed of the cosine of the standard library is that its results are within [-1, 1]. The inputs are the denormalised values."
  },
  {
   "property": "C143",
   "status": "partial",
   "theorems": [
    "HexoDSP.KnobFloatProps.in_range",
    "HexoDSP.KnobFloatProps.at_ends",
    "HexoDSP.KnobFloatProps.detune_range",
    "HexoDSP.KnobFloatProps.rises_partial",
    "HexoDSP.KnobFloatProps.dips"
   ],
   "note": "Missing because it is not true: the times of allp, comb and delay do not start at zero, and for them turning the knob up by the smallest amount sometimes lowers the time in the last place (dips). The curves that use powf (pitch, decibel, LFO time) are not modelled with f32 numbers."
  },
  {
   "property": "C144",
   "status": "proved",
   "theorems": [
    "HexoDSP.SamplFloatProps.in_tune",
    "HexoDSP.SamplFloatProps.moves_on",
    "HexoDSP.SamplFloatProps.same_head",
    "HexoDSP.SamplPartProps.offset",
    "HexoDSP.SamplPartProps.part",
    "HexoDSP.SamplPartProps.not_empty",
    "HexoDSP.SamplPartProps.same_part"
   ],
   "note": "Any rounding to the nearest f64 (nearest64_exists: there is one). Loop mode without triggers and changes of the part, see C79 for these with exact numbers. The interpolation is that of synfx_dsp; what it is handed is proved. Speeds are not negative."
  },
  {
   "property": "C145",
   "status": "proved",
   "theorems": [
    "HexoDSP.ScopeClockProps.keeps_time",
    "HexoDSP.ScopeClockProps.finishes",
    "HexoDSP.ScopeClockProps.same_clock"
   ],
   "note": "Any rounding to the nearest f32 (nearest_exists: there is one). One recording with constant settings; restarts by the trigger, what is written and the fast mode are C85, with exact numbers (same_clock: the same clock)."
  },
  {
   "property": "C146",
   "status": "proved",
   "theorems": [
    "HexoDSP.SmootherFloatProps.on_the_line",
    "HexoDSP.SmootherFloatProps.no_click",
    "HexoDSP.SmootherFloatProps.one_way",
    "HexoDSP.SmootherFloatProps.starts_right",
    "HexoDSP.SmootherFloatProps.frames_exact",
    "HexoDSP.SmootherFloatProps.overshoots",
    "HexoDSP.SmootherProps.ends_on_target"
   ],
   "note": "The model of C16 with the arithmetic of any rounding to the nearest f32 (nearest_exists: there is one). overshoots: that the value stays between start and target, as with exact numbers (C16), does not hold with f32 numbers; on_the_line bounds by how much."
  },
  {
   "property": "C147",
   "status": "proved",
   "theorems": [
    "HexoDSP.NoteFloatProps.midi_in_tune",
    "HexoDSP.NoteFloatProps.tracker_in_tune",
    "HexoDSP.NoteFloatProps.tracker_rises",
    "HexoDSP.NoteFloatProps.tracker_a_exact",
    "HexoDSP.NoteFloatProps.same_tracker_pitch",
    "HexoDSP.NoteFloatProps.last_digit_differs"
   ],
   "note": "The model of C133 with the arithmetic of any rounding to the nearest f32, and the conversion of C34 likewise (same_tracker_pitch). last_digit_differs: the two are near, not equal. The step from pitch to frequency (powf) is not part of this."
  },
  {
   "property": "C148",
   "status": "proved",
   "theorems": [
    "HexoDSP.BowStriFloatProps.one_period",
    "HexoDSP.BowStriFloatProps.fits_the_delay",
    "HexoDSP.BowStriFloatProps.bow_moves",
    "HexoDSP.BowStriFloatProps.same_lengths"
   ],
   "note": "Any rounding to the nearest f32 (nearest_exists: there is one). The lengths handed to the delay lines of synfx_dsp; what these do with them is external. same_lengths: with exact numbers the lengths of C105."
  },
  {
   "property": "C149",
   "status": "proved",
   "theorems": [
    "HexoDSP.MuxFloatProps.divides_range",
    "HexoDSP.MuxFloatProps.rises",
    "HexoDSP.MuxFloatProps.all_reached",
    "HexoDSP.MuxFloatProps.same_selection"
   ],
   "note": "Any rounding to the nearest f32 (nearest_exists: there is one). same_selection: with exact numbers the selection of C47, which has the rest of the node."
  },
  {
   "property": "C150",
   "status": "proved",
   "theorems": [
    "HexoDSP.MixFloatProps.mix_sum",
    "HexoDSP.MixFloatProps.mix_full_scale",
    "HexoDSP.MixFloatProps.mix_through",
    "HexoDSP.MixFloatProps.amp_product",
    "HexoDSP.MixFloatProps.amp_not_louder",
    "HexoDSP.MixFloatProps.amp_ends",
    "HexoDSP.MixFloatProps.out_channels",
    "HexoDSP.MixFloatProps.same_mix3",
    "HexoDSP.MixFloatProps.same_amp",
    "HexoDSP.MixFloatProps.same_out"
   ],
   "note": "Any rounding to the nearest f32 (nearest_exists: there is one). Volumes are given after the denormalisation from dB. same_*: with exact numbers the nodes of C91."
  },
  {
   "property": "C151",
   "status": "proved",
   "theorems": [
    "HexoDSP.RateFloatProps.lfo_rate",
    "HexoDSP.RateFloatProps.lfo_order",
    "HexoDSP.RateFloatProps.vosc_step",
    "HexoDSP.RateFloatProps.same_rates"
   ],
   "note": "Any rounding to the nearest f32 (nearest_exists: there is one). What LFO and oscillator (synfx_dsp) do with the rates is not covered. same_rates: with exact numbers the nodes of C107 and C104."
  },
  {
   "property": "C152",
   "status": "proved",
   "theorems": [
    "HexoDSP.NoiseFloatProps.bipolar_range",
    "HexoDSP.NoiseFloatProps.unipolar_range",
    "HexoDSP.NoiseFloatProps.noise_ends",
    "HexoDSP.NoiseFloatProps.envelope",
    "HexoDSP.NoiseFloatProps.same_nodes"
   ],
   "note": "Any rounding to the nearest f32 (nearest_exists: there is one). Generator and envelope (synfx_dsp) are arbitrary. same_nodes: with exact numbers the nodes of C99 and C102."
  }
 ]
}