{"claims": [
  {"property": "C01", "status": "proved", "theorems": ["Ovk.Indexer.C01_index_in_range", "Ovk.Indexer.C01_tuple_roundtrip", "Ovk.Indexer.C01_index_roundtrip", "Ovk.Indexer.C01_injective", "Ovk.Indexer.C01_row_major_lex", "Ovk.Indexer.C01_col_major_reverse"], "note": "Any number of dimensions, both layouts."},
  {"property": "C02", "status": "proved", "theorems": ["Ovk.C02_empty", "Ovk.C02_intersect", "Ovk.C02_overlap", "Ovk.C02_includes", "Ovk.C02_union_upper", "Ovk.C02_union_least", "Ovk.C02_extend", "Ovk.C02_count", "Ovk.C02_clamp"], "note": "Integer ranges of any dimension."},
  {"property": "C03", "status": "proved", "theorems": ["Ovk.C03_same_point", "Ovk.C03_first_period", "Ovk.C03_canonical", "Ovk.C03_idempotent"], "note": "Both periodic storage modes."},
  {"property": "C04", "status": "partial", "theorems": ["Ovk.C04_false", "Ovk.C04_partial"], "note": "False as stated: non-periodic dimensions are also shifted by one period. Proved whenever, in non-periodic dimensions, the tuple is not before the start and the target does not extend past the end of the index space."},
  {"property": "C05", "status": "partial", "theorems": ["Ovk.C05_false", "Ovk.C05_undefined", "Ovk.C05_partial"], "note": "False when the target lies outside the first period, and the empty-candidate case dereferences an empty optional. Proved for targets inside the first period and ranges no longer than a period."},
  {"property": "C06", "status": "proved", "theorems": ["Ovk.C06_cell"], "note": "Integer version."},
  {"property": "C07", "status": "proved", "theorems": ["Ovk.C07_partition", "Ovk.C07_balanced", "Ovk.C07_zero"], "note": ""},
  {"property": "C08", "status": "proved", "theorems": ["Ovk.C08_cell_space", "Ovk.C08_owner", "Ovk.C08_tiling"], "note": ""},
  {"property": "C09", "status": "partial", "theorems": ["Ovk.C09_contains_local", "Ovk.C09_contains_vertices", "Ovk.C09_only_vertices", "Ovk.C09_false", "Ovk.C09_extension_inside_partial", "Ovk.C09_extension_exact"], "note": "The \"never leaves a non-periodic space\" clause is false for extension by two next to a one-layer neighbour; proved for extension by one and away from that case."},
  {"property": "C10", "status": "proved", "theorems": ["Ovk.C10_elements", "Ovk.C10_contains", "Ovk.C10_increasing", "Ovk.C10_nodup", "Ovk.C10_find", "Ovk.C10_bounds", "Ovk.elemLess_sto"], "note": "For every comparator that is a strict total order; the integer and tuple comparators are shown to be."},
  {"property": "C100", "status": "partial", "theorems": ["Ovk.Hdl.C100_partial", "Ovk.Hdl.C100_once", "Ovk.Hdl.C100_false", "Ovk.Hdl.C100_statement"], "note": "Proved if handles are assigned to only when they own nothing (C100_partial); that the specification frees everything exactly once is C100_once. Without this condition the statement is false of the code: assigning to a handle that owns a resource loses the resource (C100_false)."},
  {"property": "C101", "status": "partial", "theorems": ["Ovk.Rec.C101_partial", "Ovk.Rec.C101_table", "Ovk.Rec.C101_mask", "Ovk.Rec.C101_unset", "Ovk.Rec.C101_padding", "Ovk.Rec.C101_others", "Ovk.Rec.C101_new_n", "Ovk.Rec.C101_new_overlap_m", "Ovk.Rec.C101_new_connectivity_m", "Ovk.Rec.C101_false", "Ovk.Rec.C101_statement"], "note": "The part about arrays and listeners is proved for all four classes (C101_table, C101_unset, C101_padding). The mask marks the points listed when the last edit session of points ended (C101_mask), hence the points listed if there was no Resize since (C101_partial). Right after Resize it still marks the old points, so the statement about masks is false of the code (C101_false)."},
  {"property": "C102", "status": "partial", "theorems": ["Ovk.Asm.C102_partial", "Ovk.Asm.C102_same", "Ovk.Asm.C102_stale", "Ovk.Asm.C102_false", "Ovk.Asm.C102_statement"], "note": "Proved for every content of the data kept, whenever assembly with a new assembler is defined (C102_same; C102_partial gives conditions on the input). If two grids that occlude each other overlap in one direction only, the code reads the mask an earlier assembly left for the other direction; a new assembler has none (undefined, C70), and two different histories give different occluded points (C102_stale), so the statement is false of the code (C102_false)."},
  {"property": "C103", "status": "proved", "theorems": ["Ovk.OLife.C103_values", "Ovk.OLife.C103_self", "Ovk.OLife.C103_unbound", "Ovk.OLife.C103_defined", "Ovk.OLife.C103_unbind"], "note": "For one option of each kind, with the maps of the code (C47). An edit session is open or closed; that it closes with the last handle is C29."},
  {"property": "C104", "status": "proved", "theorems": ["Ovk.Conc.C104_values", "Ovk.Conc.C104_progress", "Ovk.Conc.C104_terminates", "Ovk.Conc.C104_tags", "Ovk.Conc.C104_restart", "Ovk.Conc.C104_same_tag", "Ovk.Conc.C104_deadlock"], "note": "C104_tags discharges the assumption on tags for operations of one exchanger with different connectivities or tags. The last three theorems show by counterexamples that the assumptions are needed."},
  {"property": "C105", "status": "proved", "theorems": ["Ovk.CApi.C105_safe", "Ovk.CApi.C105_no_leak", "Ovk.CApi.C105_context", "Ovk.CApi.C105_destroy_view", "Ovk.CApi.C105_destroy_early", "Ovk.CApi.C105_overwrite"], "note": "The last three theorems show that each rule is needed: breaking it is undefined or leaks although all checks of the code accept the arguments."},
  {"property": "C106", "status": "proved", "theorems": ["Ovk.Retr.C106_answer", "Ovk.Retr.C106_no_deadlock", "Ovk.Retr.C106_work", "Ovk.Retr.C106_twice"], "note": "The handshake inside is the transition system of C28. Callers pass the elements of a set, so that no rank occurs twice."},
  {"property": "C107", "status": "proved", "theorems": ["Ovk.DField.C107_filled", "Ovk.DField.C107_kept", "Ovk.DField.C107_exact", "Ovk.DField.C107_returns", "Ovk.DField.C107_in_bounds", "Ovk.DField.C107_independent", "Ovk.DField.C107_duplicated"], "note": "For halo copies the owner must be a neighbour of the process (as in C20). C107_duplicated is the counterexample for duplicated storage."},
  {"property": "C108", "status": "proved", "theorems": ["Ovk.Prof.C108_time", "Ovk.Prof.C108_nested", "Ovk.Prof.C108_bounds", "Ovk.Prof.C108_profile", "Ovk.Prof.C108_timer", "Ovk.Prof.C108_elapsed", "Ovk.Prof.C108_enable_inside", "Ovk.Prof.C108_unmatched"], "note": "Exact arithmetic instead of double; the text format of the profile is not modelled. WriteProfile is stated for profiling enabled on all processes; if only some have it enabled those wait forever in MPI_Allreduce."},
  {"property": "C109", "status": "proved", "theorems": ["Ovk.DomG.C109_knows", "Ovk.DomG.C109_agree", "Ovk.DomG.C109_thresholds", "Ovk.DomG.C109_nobody"], "note": "Collective operations on the communicator of a grid while it is constructed are modelled as a given number of operations of distinct kinds; listeners do not communicate."},
  {"property": "C11", "status": "proved", "theorems": ["Ovk.C11_entries", "Ovk.C11_lookup", "Ovk.C11_contains", "Ovk.C11_order"], "note": ""},
  {"property": "C110", "status": "proved", "theorems": ["Ovk.Logging.C110_level", "Ovk.Logging.C110_idle", "Ovk.Logging.C110_written", "Ovk.Logging.C110_defined", "Ovk.Logging.C110_sections", "Ovk.Logging.C110_moved"], "note": "Loggers may not be moved or assigned while handles refer to them (C110_moved shows what happens then; the library does not). Counters are unbounded. C110_defined says exactly which operations are undefined."},
  {"property": "C111", "status": "partial", "theorems": ["Ovk.SPrint.C111_partial", "Ovk.SPrint.C111_false", "Ovk.SPrint.C111_percent"], "note": "False as stated: the second of two percent signs is taken for the start of a conversion specification, and formats without arguments are not formatted at all (C111_false, C111_percent). Proved for all formats without two percent signs in a row. `*` widths and `%n` are not modelled; how a single argument is written is a parameter."},
  {"property": "C112", "status": "proved", "theorems": ["Ovk.Serial.C112_order", "Ovk.Serial.C112_returns", "Ovk.Serial.C112_progress", "Ovk.Serial.C112_ends", "Ovk.Serial.C112_barrier"], "note": "C112_order: at any time the trace is a prefix of the actions in rank order. C112_returns: when one process has returned, all actions are done, and the result is its own. C112_progress: no deadlock. C112_ends: executions are bounded. C112_barrier shows that the restriction to functions that do not use the communicator is needed."},
  {"property": "C113", "status": "proved", "theorems": ["Ovk.Guard.C113_once", "Ovk.Guard.C113_all", "Ovk.Guard.C113_when", "Ovk.Guard.C113_exit"], "note": "Counting invariant: functions that were called, dropped, and pending in guards are a permutation of all functions given to guards."},
  {"property": "C114", "status": "partial", "theorems": ["Ovk.Vec.C114_statement", "Ovk.Vec.C114_partial", "Ovk.Vec.C114_shorter", "Ovk.Vec.C114_false", "Ovk.Vec.C114_construct", "Ovk.Vec.C114_array"], "note": "False for bool: when the new list is shorter than the old content, the list is read behind its end (C114_shorter, exactly then), and C114_array transfers this to arrays. Proved otherwise."},
  {"property": "C115", "status": "partial", "theorems": ["Ovk.ArrOps.C115_statement", "Ovk.ArrOps.C115_partial", "Ovk.ArrOps.C115_large", "Ovk.ArrOps.C115_view", "Ovk.ArrOps.C115_reduce_view", "Ovk.ArrOps.C115_false", "Ovk.ArrOps.C115_tests", "Ovk.ArrOps.C115_extrema", "Ovk.ArrOps.C115_fill"], "note": "False for arrays with more than 2^31 elements, since operator[] of arrays and views takes an int (C115_large: always out of bounds), and for collapsing views with 2^31 elements or more, where an int counter overflows (C115_view). Proved for all smaller arrays."},
  {"property": "C116", "status": "proved", "theorems": ["Ovk.Store.C116_values", "Ovk.Store.C116_owned"], "note": "Moving an array to itself is undefined in the model; what resizing, inserting and erasing do to the elements is C34 and C55 (Verif/Model/Array.lean)."},
  {"property": "C117", "status": "proved", "theorems": ["Ovk.Each.C117_each", "Ovk.Each.C117_index", "Ovk.Each.C117_fill"], "note": "Passing the tuple as separate arguments or as elem is the same in the model."},
  {"property": "C118", "status": "partial", "theorems": ["Ovk.XOps.C118_operations", "Ovk.XOps.C118_gone", "Ovk.XOps.C118_requests"], "note": "Missing: that the ranks a map is made of are the ones computed last for its side. The theorems say that the map is made of the current contents and of the ranks stored with the operation; a model that stores the ranks of the other side still satisfies them. Everything else is proved. Edits are those that raise a flag of the connectivity, as ending an edit of an array does; a program may make only the calls Spec.Ok permits."},
  {"property": "C119", "status": "proved", "theorems": ["Ovk.CompC.C119_calls", "Ovk.CompC.C119_skip"], "note": "The operations inside the construction and description of grids are the subject of C109; one component; a change of a table is a whole edit session of that table."},
  {"property": "C12", "status": "proved", "theorems": ["Ovk.C12_next_id", "Ovk.C12_fresh"], "note": ""},
  {"property": "C120", "status": "partial", "theorems": ["Ovk.BoxA.C120_contains", "Ovk.BoxA.C120_empty", "Ovk.BoxA.C120_make_empty", "Ovk.BoxA.C120_includes", "Ovk.BoxA.C120_intersect", "Ovk.BoxA.C120_overlap", "Ovk.BoxA.C120_union", "Ovk.BoxA.C120_extend", "Ovk.BoxA.C120_extend_all", "Ovk.BoxA.C120_clamp", "Ovk.BoxA.C120_clamp_fixed", "Ovk.BoxA.C120_move", "Ovk.BoxA.C120_move_rounded", "Ovk.BoxA.C120_grow", "Ovk.BoxA.C120_shrink", "Ovk.BoxA.C120_grow_rounded", "Ovk.BoxA.C120_scale_partial", "Ovk.BoxA.C120_scale_false", "Ovk.BoxA.C120_scale_negative", "Ovk.BoxA.C120_move_empty_rounded", "Ovk.BoxA.C120_move_empty_false", "Ovk.BoxA.C120_volume", "Ovk.BoxA.C120_volume_mono", "Ovk.BoxA.C120_volume_maps"], "note": "Everything holds in exact arithmetic except for ScaleBox of an empty box with a factor 0 (C120_scale_false; proved for boxes with points and for positive factors). With rounding, moving an empty box far enough makes it a point (C120_move_empty_false); that moved points stay in the moved box and that growing loses no points is proved for every monotone rounding."},
  {"property": "C121", "status": "partial", "theorems": ["Ovk.CTab.C121_tables", "Ovk.CTab.C121_stuck", "Ovk.CTab.C121_false", "Ovk.CTab.C121_partial"], "note": "C121_tables is the full statement about values, reads, sessions and events. The last sentence is false (C121_false): ovkRestoreConnectivityNSourceRanks and ovkRestoreOverlapNSourceRanks are declared, but the library defines ovkReleaseConnectivityNSourceRanks and ovkReleaseOverlapNSourceRanks; after editing source ranks no linkable program can end the session (C121_stuck). C121_partial proves it for all other tables."},
  {"property": "C122", "status": "proved", "theorems": ["Ovk.XComm.C122_safe", "Ovk.XComm.C122_updates", "Ovk.XComm.C122_component", "Ovk.XComm.C122_skip"], "note": "C122_safe: communication when all processes hear the same; C122_updates: what each update is made for; C122_component: both for all legal histories of a connectivity component; C122_skip: a process that misses an event breaks the first."},
  {"property": "C123", "status": "proved", "theorems": ["Ovk.XImp.C123_import"], "note": "All executions, the result on every process, and what listeners are told. Requires what matching (C72) is meant to give: donors with receivers."},
  {"property": "C124", "status": "proved", "theorems": ["Ovk.ImpComm.C124_import", "Ovk.ImpComm.C124_hash", "Ovk.ImpComm.C124_order"], "note": "Safety of all executions; C124_order shows that the common order of grids is needed. Results of handshakes (C28) and ranges of ranks (C19, C72) are hypotheses."},
  {"property": "C125", "status": "proved", "theorems": ["Ovk.OvlComm.C125_agree", "Ovk.OvlComm.C125_before", "Ovk.OvlComm.C125_after", "Ovk.OvlComm.C125_needed", "Ovk.OvlComm.C125_labels", "Ovk.OvlComm.C125_reductions", "Ovk.OvlComm.C125_tags"], "note": "C125_before covers the hash up to the needed fragments, C125_after everything after the transfer of fragments (C42), whose end is a reduction over all processes; C125_agree says both sides agree on who talks to whom; C125_tags shows that tags are needed."},
  {"property": "C126", "status": "partial", "theorems": ["Ovk.Pad.C126_ranges", "Ovk.Pad.C126_carts", "Ovk.Pad.C126_pieces", "Ovk.Pad.C126_grid", "Ovk.Pad.C126_faithful", "Ovk.Pad.C126_last", "Ovk.Pad.C126_arrays", "Ovk.Pad.C126_params_partial", "Ovk.Pad.C126_false"], "note": "The last sentence is false as stated: SetCart accepts a two-dimensional cart whose third dimension is 0 to 7 and periodic (C126_false). C126_params_partial proves it if the carts given to SetCart are carts of their dimension. Everything else is proved in full, for any number of used and stored dimensions."},
  {"property": "C127", "status": "partial", "theorems": ["Ovk.GeoC.C127_calls", "Ovk.GeoC.C127_skip", "Ovk.GeoC.C127_infos_partial", "Ovk.GeoC.C127_false"], "note": "The last sentence is false as stated: the description is made when the geometry is created and SetPeriodicLength does not change it (C127_false). C127_infos_partial proves it for geometries whose length is not set again. Everything else is proved in full (C127_calls, C127_skip)."},
  {"property": "C128", "status": "proved", "theorems": ["Ovk.MapMem.C128_runs", "Ovk.MapMem.C128_step", "Ovk.MapMem.C128_owned", "Ovk.MapMem.C128_freed", "Ovk.MapMem.C128_stays", "Ovk.MapMem.C128_dangling"], "note": "Objects are named by numbers never used again; what std::vector does when it inserts, erases, grows and assigns is part of the model."},
  {"property": "C129", "status": "proved", "theorems": ["Ovk.AllOpt.C129_one", "Ovk.AllOpt.C129_two", "Ovk.AllOpt.C129_defined", "Ovk.AllOpt.C129_independent", "Ovk.AllOpt.C129_self"], "note": "double values are rational numbers; the history of one option is C47, the grids of the domain are C103."},
  {"property": "C13", "status": "proved", "theorems": ["Ovk.UF.C13_defined", "Ovk.UF.C13_find", "Ovk.UF.C13_absent", "Ovk.UF.C13_union_result"], "note": "Histories may also contain find and relabel calls."},
  {"property": "C130", "status": "partial", "theorems": ["Ovk.Lifetimes.C130_partial", "Ovk.Lifetimes.C130_assign", "Ovk.Lifetimes.C130_order", "Ovk.Lifetimes.C130_context", "Ovk.Lifetimes.C130_nothing_left", "Ovk.Lifetimes.C130_false"], "note": "false as stated (C130_false): assigning to a domain that has components is undefined. C130_partial proves it for all programs that do not do so, C130_assign that this is the only case; assemblers and exchangers bound to a domain are not part of the programs."},
  {"property": "C131", "status": "proved", "theorems": ["Ovk.HaloPool.C131_values", "Ovk.HaloPool.C131_once", "Ovk.HaloPool.C131_at_most_once", "Ovk.HaloPool.C131_buffers", "Ovk.HaloPool.C131_reuse", "Ovk.HaloPool.C131_progress", "Ovk.HaloPool.C131_local"], "note": ""},
  {"property": "C132", "status": "partial", "theorems": ["Ovk.BindMove.C132_partial", "Ovk.BindMove.C132_events_partial", "Ovk.BindMove.C132_refused", "Ovk.BindMove.C132_destroyed", "Ovk.BindMove.C132_overwritten", "Ovk.BindMove.C132_false", "Ovk.BindMove.C132_statement"], "note": "False in full (C132_false): nothing tells a bound object that its domain is destroyed or that another domain is moved into it. C132_partial and C132_events_partial prove everything for programs that end a domain only when nothing is bound to it; C132_destroyed and C132_overwritten show that after every such program breaking this rule leaves an object that says it is bound but cannot be used, unbound or destroyed."},
  {"property": "C133", "status": "proved", "theorems": ["Ovk.Views.C133", "Ovk.Views.C133_gone", "Ovk.Views.C133_written", "Ovk.Views.C133_outside", "Ovk.Views.C133_overlap"], "note": ""},
  {"property": "C134", "status": "partial", "theorems": ["Ovk.DataTypes.C134_partial", "Ovk.DataTypes.C134_false", "Ovk.DataTypes.C134_collect", "Ovk.DataTypes.C134_min_max", "Ovk.DataTypes.C134_disperse", "Ovk.DataTypes.C134_send_recv", "Ovk.DataTypes.C134_codes", "Ovk.DataTypes.C134_classes", "Ovk.DataTypes.C134_size", "Ovk.DataTypes.C134_sized", "Ovk.DataTypes.C134_through", "Ovk.DataTypes.C134_sent", "Ovk.DataTypes.C134_mismatch", "Ovk.DataTypes.C134_toMPI", "Ovk.DataTypes.C134_buffer"], "note": "false as stated (C134_false): DataTypeToMPI has no case for booleans and gives MPI_DATATYPE_NULL. Everything else is proved, C134_toMPI for all other data types."},
  {"property": "C135", "status": "partial", "theorems": ["Ovk.CellOps.C135_line", "Ovk.CellOps.C135_plane", "Ovk.CellOps.C135_space", "Ovk.CellOps.C135_same_plane", "Ovk.CellOps.C135_same_space", "Ovk.CellOps.C135_bounds_line", "Ovk.CellOps.C135_bounds_plane", "Ovk.CellOps.C135_bounds_space", "Ovk.CellOps.C135_partial", "Ovk.CellOps.C135_false"], "note": "false as stated (C135_false): the bounds of one-dimensional cells have four entries that were never written. The rest is proved; the bounds of cells with edges along the axes for increasing coordinates only (the other case is C59_false). Exact arithmetic."},
  {"property": "C14", "status": "partial", "theorems": ["Ovk.UF.C14_false", "Ovk.UF.C14_relabel_exact", "Ovk.UF.C14_partial"], "note": "False as stated: relabelling picks the largest member below the old representative. Classes are unchanged; the smallest member is chosen when at most one member is below the old representative."},
  {"property": "C15", "status": "proved", "theorems": ["Ovk.C15_components", "Ovk.C15_grid", "Ovk.C15_decomposition_independent", "Ovk.C15_extension_offers", "Ovk.C15_grid_offers", "Ovk.groupLast_flatten", "Ovk.groupOne_flatten"], "note": "Generic over neighbour structures, and instantiated for grids with unique periodic storage."},
  {"property": "C16", "status": "proved", "theorems": ["Ovk.C16_flood"], "note": "Grids with unique periodic storage."},
  {"property": "C17", "status": "proved", "theorems": ["Ovk.C17_edge", "Ovk.C17_dilate", "Ovk.C17_erode", "Ovk.C17_dual", "Ovk.C17_negative", "Ovk.C17_extension_tight", "Ovk.C17_grid_tight"], "note": "Grids with unique periodic storage; all three boundary conditions; includes exterior points for edges."},
  {"property": "C18", "status": "proved", "theorems": ["Ovk.RegionHash.C18_never_misses", "Ovk.RegionHash.C18_once", "Ovk.RegionHash.C18_outside", "Ovk.RegionHash.C18_defined", "Ovk.RegionHash.C18_flat_undefined"], "note": "region_hash<box>, the only instantiation the library uses. Any monotone rounding. Regions that are all flat in one dimension make the bin size zero, which is undefined (C18_flat_undefined)."},
  {"property": "C19", "status": "proved", "theorems": ["Ovk.DHash.C19_ranges", "Ovk.DHash.C19_fragments", "Ovk.DHash.C19_decomp_fits", "Ovk.DHash.C19_gap_undefined"], "note": "Both region types of the library (index ranges; oriented boxes in exact arithmetic), all numbers of processes and bins, all discovery orders. Assumes the handshake finds all senders (C28). Points covered by no region may index a process without storage (C19_gap_undefined); the library never asks for such points."},
  {"property": "C20", "status": "proved", "theorems": ["Ovk.Halo.C20_values", "Ovk.Halo.C20_owned", "Ovk.Halo.C20_untouched", "Ovk.Halo.C20_in_bounds", "Ovk.Halo.C20_progress", "Ovk.Halo.C20_terminates", "Ovk.Halo.C20_same_result"], "note": "All dimensions, periodicities, storages, tilings; all interleavings of calls and completions."},
  {"property": "C21", "status": "proved", "theorems": ["Ovk.SR.C21_values", "Ovk.SR.C21_matching", "Ovk.SR.C21_progress", "Ovk.SR.C21_terminates", "Ovk.SR.C21_default_order"], "note": "All maps, orders, component counts and interleavings of calls, message completions and unpacking."},
  {"property": "C22", "status": "partial", "theorems": ["Ovk.C22_partial", "Ovk.C22_matching", "Ovk.C22_all", "Ovk.C22_any", "Ovk.C22_none", "Ovk.C22_not_all", "Ovk.C22_min", "Ovk.C22_max_partial", "Ovk.C22_interp", "Ovk.C22_false", "Ovk.C22_max_false", "Ovk.C22_thin_undefined"], "note": "Proved for column-major arrays (any distribution, any reduction, exact bit-for-bit order) and for any layout when cells do not straddle. False: row-major straddling cells (C22_false), MAX over floating point (C22_max_false); undefined if vertices lie on non-neighbours (C22_thin_undefined)."},
  {"property": "C23", "status": "proved", "theorems": ["Ovk.C23_overwrite", "Ovk.C23_append", "Ovk.C23_append_sum"], "note": "Both layouts, any number of components, duplicated target points."},
  {"property": "C24", "status": "partial", "theorems": ["Ovk.Xch.C24_destination", "Ovk.Xch.C24_partial", "Ovk.Xch.C24_false"], "note": "Destination ranks in full; source ranks when no two connectivities with donors on different processes target the same point. False otherwise (C24_false). All process counts and point counts, including empty partitions."},
  {"property": "C25", "status": "proved", "theorems": ["Ovk.Xch.C25_order", "Ovk.Xch.C25_delivery"], "note": "Any listing order, any behaviour of std::sort on equal elements. C25_delivery chains C24, C25 and C21: every receiver ends with the value of its donor, for all message interleavings."},
  {"property": "C26", "status": "partial", "theorems": ["Ovk.Xch.C26_partial", "Ovk.Xch.C26_false"], "note": "Proved for operations created with the same set of connectivities; false when connectivities are created or destroyed in between (C26_false)."},
  {"property": "C27", "status": "proved", "theorems": ["Ovk.Req.C27_waitAll", "Ovk.Req.C27_waitAny", "Ovk.Req.C27_wait", "Ovk.Req.C27_wait_empty", "Ovk.Req.C27_waitAny_loop", "Ovk.Req.C27_progress_trans", "Ovk.Req.C27_serves_exists"], "note": "All request lists, null requests, partially completed requests, all completion orders."},
  {"property": "C28", "status": "proved", "theorems": ["Ovk.Shake.C28_answer", "Ovk.Shake.C28_no_deadlock", "Ovk.Shake.C28_work"], "note": "All process counts, all (also repeated) rank lists, all interleavings; with MPI_Ibarrier (C53 covers the fallback)."},
  {"property": "C29", "status": "partial", "theorems": ["Ovk.Edit.C29_partial", "Ovk.Edit.C29_false"], "note": "All histories of handle variables (edit, copy, move, destroy, release) and of object-level Restore, of any length; independent reference semantics (set of holders). Missing: histories calling edit_handle::Restore, for which the full statement is false (C29_false)."},
  {"property": "C30", "status": "proved", "theorems": ["Ovk.Event.C30_trigger", "Ovk.Event.C30_new_id"], "note": "All histories of registering, moving and dropping handles. Listeners do not touch the event while being called."},
  {"property": "C31", "status": "proved", "theorems": ["Ovk.Comp.C31_sync", "Ovk.Comp.C31_edit", "Ovk.Comp.C31_same"], "note": "All histories of collective calls and local edits on P processes."},
  {"property": "C32", "status": "partial", "theorems": ["Ovk.Comp.C32_partial", "Ovk.Comp.C32_copy_partial", "Ovk.Comp.C32_leftover", "Ovk.Comp.C32_false", "Ovk.Comp.C32_undefined"], "note": "Holds for at most two connectivities when cells behind the end still hold their bytes; false from three on (C32_false, C32_leftover says exactly what remains); reads behind the end from two on (C32_undefined)."},
  {"property": "C33", "status": "proved", "theorems": ["Ovk.Comp.C33_invariant", "Ovk.Comp.C33_destroy", "Ovk.Comp.C33_create", "Ovk.Comp.C33_defined"], "note": "All histories on P processes."},
  {"property": "C34", "status": "proved", "theorems": ["Ovk.Arr.C34_resize"], "note": "Any rank, both layouts, both overloads."},
  {"property": "C35", "status": "proved", "theorems": ["Ovk.Geo.C35_solve2", "Ovk.Geo.C35_solve3", "Ovk.Geo.C35_det2"], "note": "Over every ordered field; uniqueness included."},
  {"property": "C36", "status": "proved", "theorems": ["Ovk.Geo.C36_linear", "Ovk.Geo.C36_cubic", "Ovk.Geo.C36_cubic_sum", "Ovk.Geo.C36_cubic_node", "Ovk.Geo.C36_cubic_deriv", "Ovk.Geo.C36_tensor"], "note": "Over every ordered field; the two-digit constants of the derivative formula are exact."},
  {"property": "C37", "status": "proved", "theorems": ["Ovk.Geo.C37_uniform", "Ovk.Geo.C37_oriented", "Ovk.Geo.C37_oriented_image2", "Ovk.Geo.C37_oriented_image3", "Ovk.Geo.C37_newton", "Ovk.Geo.C37_quad", "Ovk.Geo.C37_hex", "Ovk.Geo.C37_sheared"], "note": "Oriented-uniform cells with orthogonal edges (C37_sheared: the formula is not an inverse for sheared cells, which are outside the type). Newton: whatever is returned maps within the tolerance."},
  {"property": "C38", "status": "proved", "theorems": ["Ovk.Accel.C38_candidates", "Ovk.Accel.C38_find", "Ovk.Accel.C38_defined", "Ovk.Accel.C38_flat_undefined"], "note": "Any monotone rounding of split positions, any depth; construction is defined unless every active box is flat in a binned direction (C38_flat_undefined shows the division by zero). Dimensions 2 and up."},
  {"property": "C39", "status": "proved", "theorems": ["Ovk.Accel.C39_aggregate", "Ovk.Accel.C39_order", "Ovk.Accel.C39_decomposition", "Ovk.Accel.C39_fragment"], "note": "Any number of points, cells, fragments and visiting orders; dimensions 1 and up. C39_decomposition assumes that every fragment reports a best accepting cell, which C39_fragment derives from the search tree when accepted points lie in the cell boxes (C62)."},
  {"property": "C40", "status": "proved", "theorems": ["Ovk.subdivide_spec", "Ovk.C40_fragments", "Ovk.C40_longest", "Ovk.C40_halved"], "note": ""},
  {"property": "C41", "status": "proved", "theorems": ["Ovk.C41_cover"], "note": ""},
  {"property": "C42", "status": "partial", "theorems": ["Ovk.Transfer.C42_partial", "Ovk.Transfer.C42_ranges", "Ovk.Transfer.C42_once", "Ovk.Transfer.C42_progress", "Ovk.Transfer.C42_terminates", "Ovk.Transfer.C42_statement", "Ovk.Transfer.C42_false"], "note": "The claim as stated is false (C42_false): MPI orders matching, not completion, and data is sent in the order in which signals are reported. Proved when signals of one receiver are reported in order, for every other completion order. Exactly-once, deadlock freedom and termination hold for all orders."},
  {"property": "C43", "status": "proved", "theorems": ["Ovk.Asm.C43_reset", "Ovk.Asm.C43_clears", "Ovk.Asm.C43_restores"], "note": "For whole runs of all assembly stages on any number of grids, any decomposition satisfying Layouts, any search results and any sequence of assemblies whose run is defined."},
  {"property": "C44", "status": "partial", "theorems": ["Ovk.Asm.C44_statement", "Ovk.Asm.C44_partial", "Ovk.Asm.C44_false"], "note": "False as stated for grids with fringe size 0 (C44_false): a point already cut as a boundary hole is removed a second time. Proved when the fringe size is positive or the grid has no boundary holes."},
  {"property": "C45", "status": "partial", "theorems": ["Ovk.Asm.C45_statement", "Ovk.Asm.C45_partial", "Ovk.Asm.C45_false"], "note": "False as stated (C45_false): points of the receiver region farther from its boundary than the cap keep the positive cap. Proved for all points outside the region and all points of the region closer to the boundary than the cap."},
  {"property": "C46", "status": "proved", "theorems": ["Ovk.Asm.C46_donors", "Ovk.Asm.C46_unique"], "note": "For whole assemblies; eligibility = enabled connection, active donor cell, and for disjoint connections positive receiver distance of all corners as computed by the code (C45 says when that is the real distance)."},
  {"property": "C47", "status": "proved", "theorems": ["Ovk.Opt.C47_grid", "Ovk.Opt.C47_pair", "Ovk.Opt.C47_value_unique", "Ovk.Opt.C47_read_back", "Ovk.Opt.C47_end_edit"], "note": "Any history of additions, removals and settings; settings name known grids (asserted by the code). C47_value_unique: the required value is unique. C47_end_edit: the reset of self pairs at the end of an edit."},
  {"property": "C48", "status": "partial", "theorems": ["Ovk.Text.C48_unsigned", "Ovk.Text.C48_read_back", "Ovk.Text.C48_signed", "Ovk.Text.C48_undefined", "Ovk.Text.C48_label"], "note": "Proved for all unsigned numbers and all signed numbers but the least one of the type, whose absolute value is not representable (C48_undefined)."},
  {"property": "C49", "status": "proved", "theorems": ["Ovk.Pool.C49_fetch", "Ovk.Pool.C49_fresh"], "note": "For every history of Insert, Fetch and Erase, on any number of processes; holds although CartLess_ is not an order."},
  {"property": "C50", "status": "proved", "theorems": ["Ovk.C50_count"], "note": ""},
  {"property": "C51", "status": "partial", "theorems": ["Ovk.C51_exact", "Ovk.C51_symmetric", "Ovk.C51_covers_partial", "Ovk.C51_grid_halo_partial", "Ovk.C51_thin_false", "Ovk.C51_duplicated_false"], "note": "Exactness and symmetry proved for unique periodic storage; coverage of the extended range proved for Cartesian decompositions with at least three layers per process. False otherwise: C51_thin_false, C51_duplicated_false."},
  {"property": "C52", "status": "partial", "theorems": ["Ovk.Req.C52_partial", "Ovk.Req.C52_false"], "note": "Wait and WaitAll in full; WaitAny leaves the wait timer running for the other requests (C52_false)."},
  {"property": "C53", "status": "proved", "theorems": ["Ovk.Shake.Sig.C53_barrier", "Ovk.Shake.Sig.C53_no_deadlock"], "note": "All process counts and interleavings of one use of the signal."},
  {"property": "C54", "status": "partial", "theorems": ["Ovk.Arr.C54_partial", "Ovk.Arr.C54_false", "Ovk.Arr.C54_append_false", "Ovk.Arr.C54_reads"], "note": "False when shrinking."},
  {"property": "C55", "status": "proved", "theorems": ["Ovk.Arr.C55_history"], "note": "All histories within preconditions."},
  {"property": "C56", "status": "partial", "theorems": ["Ovk.Geo.C56_result", "Ovk.Geo.C56_partial2", "Ovk.Geo.C56_partial3", "Ovk.Geo.C56_sound", "Ovk.Geo.C56_statement", "Ovk.Geo.C56_never", "Ovk.Geo.C56_false"], "note": "Two and three dimensions hold. In one dimension no value is ever returned (C56_never, C56_false). Missing: convergence of the Newton iteration on non-affine cells."},
  {"property": "C57", "status": "partial", "theorems": ["Ovk.Geo.C57_triangle", "Ovk.Geo.C57_tetrahedron", "Ovk.Geo.C57_quad_partial", "Ovk.Geo.C57_hex_partial", "Ovk.Geo.C57_tolerance_quad", "Ovk.Geo.C57_tolerance_hex", "Ovk.Geo.C57_parallelogram", "Ovk.Geo.C57_parallelepiped", "Ovk.Geo.C57_uniform", "Ovk.Geo.C57_statement", "Ovk.Geo.C57_collapsed", "Ovk.Geo.C57_false"], "note": "Proper cells (no degenerate simplex): exactly the union of the simplices; parallelepipeds: exactly the cell. False for collapsed cells, which accept every point."},
  {"property": "C58", "status": "partial", "theorems": ["Ovk.Geo.C58_parallelogram", "Ovk.Geo.C58_parallelepiped", "Ovk.Geo.C58_nonneg", "Ovk.Geo.C58_partial", "Ovk.Geo.C58_statement", "Ovk.Geo.C58_false", "Ovk.Geo.C58_false2"], "note": "Oriented and curvilinear formulas agree always on parallelepipeds; the uniform one only if no coordinate decreases (else it can be negative)."},
  {"property": "C59", "status": "partial", "theorems": ["Ovk.Geo.C59_bounds", "Ovk.Geo.C59_quad_partial", "Ovk.Geo.C59_hex_partial", "Ovk.Geo.C59_uniform_partial", "Ovk.Geo.C59_statement", "Ovk.Geo.C59_false"], "note": "Curvilinear bounds hold for all cells (containment of accepted points: proper cells); uniform bounds only for increasing coordinates."},
  {"property": "C60", "status": "partial", "theorems": ["Ovk.GeoF.C60_coords", "Ovk.GeoF.C60_statement", "Ovk.GeoF.C60_false"], "note": "Holds when an edit ends. False after SetPeriodicLength, which leaves the halo coordinates as they were."},
  {"property": "C61", "status": "proved", "theorems": ["Ovk.GeoF.C61_cells", "Ovk.GeoF.C61_neighbors", "Ovk.GeoF.C61_points", "Ovk.GeoF.C61_volumes", "Ovk.GeoF.C61_invariant_uniform", "Ovk.GeoF.C61_invariant_quad", "Ovk.GeoF.C61_invariant_hex"], "note": "Assumes every dimension has a cell (else the mean is 0/0) and that owners of halo points are neighbours (C51)."},
  {"property": "C62", "status": "partial", "theorems": ["Ovk.Accel.C62_uniform", "Ovk.Accel.C62_oriented", "Ovk.Accel.C62_statement", "Ovk.Accel.C62_false", "Ovk.Accel.C62_quad_partial", "Ovk.Accel.C62_hex_partial"], "note": "True for uniform and oriented uniform cells. False for quadrilaterals and hexahedra split in simplices (C62_false): the tolerance of the barycentric coordinates adds up at the corners. The partial theorems give the boxes that do suffice (twice / three times the tolerance)."},
  {"property": "C63", "status": "partial", "theorems": ["Ovk.Asm.C63_statement", "Ovk.Asm.C63_partial", "Ovk.Asm.C63_false"], "note": "False as stated (C63_false): receivers deep inside a receiver region get a positive distance (C45) and are accepted as donor points. Proved: this is the only way it can happen."},
  {"property": "C64", "status": "partial", "theorems": ["Ovk.Text.C64_replace", "Ovk.Text.C64_unique", "Ovk.Text.C64_statement", "Ovk.Text.C64_false"], "note": "Proved for all nonempty substrings; with an empty substring the loop never ends (C64_false)."},
  {"property": "C65", "status": "partial", "theorems": ["Ovk.Pool.C65_partial", "Ovk.Pool.C65_statement", "Ovk.Pool.C65_false"], "note": "False as stated, because CartLess_ is not an order (C65_false); the partial theorem covers pools whose index spaces are in a consistent order."},
  {"property": "C66", "status": "proved", "theorems": ["Ovk.Asm.C66_receivers", "Ovk.Asm.C66_active"], "note": ""},
  {"property": "C67", "status": "partial", "theorems": ["Ovk.Asm.C67_partial", "Ovk.Asm.C67_statement", "Ovk.Asm.C67_false"], "note": "False for points removed by overlap minimization that belonged to the outer fringe (C67_false); proved for all other points."},
  {"property": "C68", "status": "partial", "theorems": ["Ovk.Asm.C68_partial", "Ovk.Asm.C68_statement", "Ovk.Asm.C68_false"], "note": "False for grids that occlude each other (C68_false); proved if no grid found at the point is in turn occluded by the point's grid."},
  {"property": "C69", "status": "proved", "theorems": ["Ovk.Asm.C69_occluded", "Ovk.Asm.C69_padding", "Ovk.Asm.C69_smoothing"], "note": ""},
  {"property": "C70", "status": "partial", "theorems": ["Ovk.Asm.C70_partial", "Ovk.Asm.C70_terminates_partial", "Ovk.Asm.C70_undefined", "Ovk.Asm.C70_loops", "Ovk.Asm.C70_statement", "Ovk.Asm.C70_false"], "note": "False as stated: grids that occlude each other and overlap in one direction only make DetectOccluded_ read a mask that does not exist (C70_undefined, C70_false), and the loop of the boundary projection may run forever (C70_loops). Proved that these are the only two causes (C70_partial)."},
  {"property": "C71", "status": "partial", "theorems": ["Ovk.Xintout.C71_partial", "Ovk.Xintout.C71_false", "Ovk.Xintout.C71_covered", "Ovk.Xintout.C71_target", "Ovk.Xintout.C71_fits", "Ovk.Xintout.C71_interval"], "note": "False as stated: the last reading process may start behind the end, and its negative count, converted to unsigned, is reported as a chunk that is too big (C71_false: 5 records, 8 points, 4 processes). Proved: termination, exact coverage always, the exact condition for the error, and which processes read (C71_interval: the smallest sufficient power of two, adjusted as requested)."},
  {"property": "C72", "status": "proved", "theorems": ["Ovk.Xintout.C72_matching", "Ovk.Xintout.C72_lookup"], "note": "C72_lookup also covers incomplete files: exactly the records whose connection has a partner get one. MPI messages are modelled as reliable ordered delivery; ids are natural numbers."},
  {"property": "C73", "status": "proved", "theorems": ["Ovk.Xintout.C73_import", "Ovk.Xintout.C73_sides"], "note": "Records are given as lists: the bytes of the files, I/O errors and interpolation coefficient packing are not modelled. Messages are reliable and ordered; ids and sizes are unbounded. Absence of the chunk error of C71 is a hypothesis."},
  {"property": "C74", "status": "proved", "theorems": ["Ovk.Asm.C74_best"], "note": "Distances are rationals; the bound on the edge padding makes different fractions differ by more than the tolerance 1e-12 of the code. Mixed occlusion settings are covered only by the first part: with them the result of a tie depends on the order of the grids."},
  {"property": "C75", "status": "proved", "theorems": ["Ovk.Xch.C75_exchange", "Ovk.Xch.C75_unique"], "note": "Composition of C21-C25. Hypotheses (Spec.Ready) are those of the parts: donors and receivers match, no point is targeted by two connectivities from different processes (otherwise C24 is false), and the donor field is column major or no donor cell straddles processes (otherwise C22 is false). Exact arithmetic."},
  {"property": "C76", "status": "partial", "theorems": ["Ovk.C76_partial", "Ovk.C76_false", "Ovk.C76_square"], "note": "Proved for up to 26754 processes. False beyond: for 257*257 processes proposed as (66049,1), the case the code means to improve, the variance overflows an int (C76_false). C76_square: squares of the primes up to 251 become (N,N)."},
  {"property": "C77", "status": "partial", "theorems": ["Ovk.C77_partial", "Ovk.C77_false", "Ovk.C77_hangs", "Ovk.C77_detects"], "note": "Proved if all captured errors are of one kind (the error of the lowest rank wins). False otherwise: a process keeps its own kind of error but gets the path of the lowest kind (C77_false), or the processes wait forever (C77_hangs). That all or none have an error afterwards holds whenever synchronizing completes (C77_detects)."},
  {"property": "C78", "status": "proved", "theorems": ["Ovk.Bcast.C78_values", "Ovk.Bcast.C78_progress", "Ovk.Bcast.C78_terminates", "Ovk.Bcast.C78_two_sources", "Ovk.Bcast.C78_no_source"], "note": "C78_two_sources and C78_no_source show that exactly one source in every call is needed."},
  {"property": "C79", "status": "partial", "theorems": ["Ovk.Float.C79_partial", "Ovk.Float.C79_defined", "Ovk.Float.C79_false", "Ovk.Float.C79_hollow", "Ovk.Float.C79_overwritten"], "note": "Proved for all histories in which no object is moved from or referred to after it was moved from, and as long as no other object is moved into the one referred to; C79_defined gives the exact condition for an operation to be defined. False beyond that: moving from an object that was moved from follows a null pointer (C79_hollow), and a move assignment frees the cell that references to the assigned object use (C79_overwritten)."},
  {"property": "C80", "status": "proved", "theorems": ["Ovk.Asm.C80_inferred", "Ovk.Asm.C80_boundary"], "note": "For all runs of the assembly."},
  {"property": "C81", "status": "proved", "theorems": ["Ovk.Asm.C81_holes", "Ovk.Asm.C81_boundary", "Ovk.Asm.C81_interior"], "note": "For all runs of the assembly in which the search finds cells of the grids; C70 tells when the loop that closes the gap ends."},
  {"property": "C82", "status": "proved", "theorems": ["Ovk.Asm.C82_outer", "Ovk.Asm.C82_flag"], "note": "For all runs of the assembly on grids whose processes own nonempty parts."},
  {"property": "C83", "status": "partial", "theorems": ["Ovk.Bind.C83_partial", "Ovk.Bind.C83_exact_partial", "Ovk.Bind.C83_defined", "Ovk.Bind.C83_false"], "note": "False in full (C83_false): unbinding removes the listener from the map the event is iterating over, so the loop runs past the end unless the object had the last listener. C83_defined says exactly when destroying completes; C83_partial that the result is right whenever it does."},
  {"property": "C84", "status": "partial", "theorems": ["Ovk.XLife.C84_partial", "Ovk.XLife.C84_false"], "note": "False in full (C84_false): the ranks depend on the extents of the donors and on the points of the receivers, but only edits of destinations and sources make the exchanger recompute them. Proved for all histories in which extents are edited together with destinations and points together with sources, as after a resize."},
  {"property": "C85", "status": "proved", "theorems": ["Ovk.Ovl.C85_sides", "Ovk.Ovl.C85_owner", "Ovk.Ovl.C85_destinations"], "note": "Whole of DetectOverlap_ for all processes at once, down to the two sides. The only hypotheses: the index spaces are proper and divided among the processes, and std::sort sorts. Stated for every execution that is defined (C86 and C87 are about definedness)."},
  {"property": "C86", "status": "partial", "theorems": ["Ovk.Ovl.C86_partial", "Ovk.Ovl.C86_false"], "note": "False in full (C86_false): a cell that is not affine accepts, with a positive tolerance, points outside its bounds enlarged by the tolerance, which are never looked for. Proved for tolerance zero (any multilinear cells) and for affine cells with any tolerance. Exact arithmetic."},
  {"property": "C87", "status": "partial", "theorems": ["Ovk.Ovl.C87_partial", "Ovk.Ovl.C87_false"], "note": "False in full (C87_false): the hash bin of an active point that is not a vertex of an active cell can be on a process that stores no fragments; retrieving it reads past the end of an empty array. Proved if every active point is within the bounds of an active cell of its grid."},
  {"property": "C88", "status": "partial", "theorems": ["Ovk.Ovl.C88_partial", "Ovk.Ovl.C88_false", "Ovk.Ovl.C88_layer_false", "Ovk.Ovl.C88_period_false", "Ovk.Ovl.C88_duplicated_false"], "note": "False in full; four witnesses, each a kernel-evaluated run in which a process waits for a message that is never sent: a process that holds vertices of an active cell but no active cells (C88_false), one that holds only the last layer of points (C88_layer_false, all points active), a period that shifts coordinates (C88_period_false), duplicated periodic storage (C88_duplicated_false). Proved with unique storage, if every process holding a vertex of an active cell owns an active cell at one of its vertices, and if images of cells in the halo are where the cells are."},
  {"property": "C89", "status": "partial", "theorems": ["Ovk.Ovl.C89_partial", "Ovk.Ovl.C89_coordinates", "Ovk.Ovl.C89_false"], "note": "False in full by the first witness of C88: the interpolation on process 0 never completes. Proved under the conditions of C88."},
  {"property": "C90", "status": "partial", "theorems": ["Ovk.Ovl.C90_learn", "Ovk.Ovl.C90_partial", "Ovk.Ovl.C90_false"], "note": "False in full (C90_false): with duplicated periodic storage two processes own the same donor. Proved for unique storage."},
  {"property": "C91", "status": "partial", "theorems": ["Ovk.Ovl.C91_partial", "Ovk.Ovl.C91_false", "Ovk.Ovl.filled_exchanged"], "note": "False in full (C91_false): with duplicated periodic storage a point is sent two values and expects one. Proved for unique storage."},
  {"property": "C92", "status": "proved", "theorems": ["Ovk.Sched.C92", "Ovk.Sched.C92_arrived", "Ovk.Sched.C92_overlap"], "note": "Sends are synchronous in the model, which is the worst case for waiting."},
  {"property": "C93", "status": "partial", "theorems": ["Ovk.XFile.C93_partial", "Ovk.XFile.C93_mismatch", "Ovk.XFile.C93_chunks", "Ovk.XFile.C93_false", "Ovk.XFile.C93_short"], "note": "False for files of the standard format without IBlank data whose first grid has 7 points (C93_false); proved for all others."},
  {"property": "C94", "status": "proved", "theorems": ["Ovk.Asm.C94", "Ovk.Asm.C94_search", "Ovk.Asm.searchedProblem_searched", "Ovk.Asm.searchedProblem_valid"], "note": "Values held for points of other processes are those of the owner; arithmetic is exact."},
  {"property": "C95", "status": "partial", "theorems": ["Ovk.GData.C95_false_debug", "Ovk.GData.C95_false_release", "Ovk.GData.C95_announced_partial", "Ovk.GData.C95_destroy_iff_partial", "Ovk.GData.C95_release_partial", "Ovk.GData.C95_invariant", "Ovk.GData.C95_records", "Ovk.GData.C95_batches", "Ovk.GData.C95_edits"], "note": "False as stated: destroying a grid without a geometry (state) violates an assertion with OVK_DEBUG and announces a destruction that never had a creation without. Everything else is proved for all histories; the account heard by listeners is proved when only grids with data are destroyed (automatic with OVK_DEBUG)."},
  {"property": "C96", "status": "proved", "theorems": ["Ovk.Asm.C96_exchange", "Ovk.Asm.C96_receivers", "Ovk.Asm.C96_linear", "Ovk.Asm.C96_same"], "note": "Composition of C46, C86, C90, C91, C94 and C89_coordinates. The scope in the statement is where these hold: C86 is false for non-affine cells with positive tolerance, C91 for duplicated periodic storage. When assembly completes is C70. Exact arithmetic."},
  {"property": "C97", "status": "partial", "theorems": ["Ovk.XErr.C97_partial", "Ovk.XErr.C97_apart", "Ovk.XErr.C97_false", "Ovk.XErr.C97_open_false", "Ovk.XErr.together_of_disjoint", "Ovk.XErr.C97_statement"], "note": "All executions end and all processes throw iff there is an error (C97_partial), if files open on all processes of a chunk communicator or on none and if, whenever it is the turn of a grid, all or none of its processes have found an error before; the latter holds if grids do not share processes (together_of_disjoint). Otherwise no execution ends (C97_apart). The statement is false of the code: C97_false (a process with two grids, an error in the first, the second grid shared), C97_open_false (a file opens on one of two processes)."},
  {"property": "C98", "status": "partial", "theorems": ["Ovk.C98_partial", "Ovk.C98_false", "Ovk.C98_count_race", "Ovk.C98_count", "Ovk.C98_statement", "Ovk.Thr.run_start"], "note": "Proved for all interleavings if there are not more threads than when the object was created (C98_partial), for column-major layout or cells without remote vertices as in C22. Without this condition the statement is false of the code (C98_false). Counting the threads is itself a data race whenever there are several (C98_count_race), though all of them write the same number (C98_count)."},
  {"property": "C99", "status": "partial", "theorems": ["Ovk.Optn.C99_partial", "Ovk.Optn.C99_values", "Ovk.Optn.C99_false", "Ovk.Optn.C99_self_undefined", "Ovk.Optn.C99_statement"], "note": "The values are right and nothing undefined happens as long as no optional is moved into itself (C99_values). Value objects are destroyed exactly once if moreover no value is moved by move assignment from another optional (C99_partial). Without these conditions the statement is false of the code: move assignment never destroys the value moved from (C99_false), and moving an optional into itself uses a destroyed value (C99_self_undefined)."}
]}
