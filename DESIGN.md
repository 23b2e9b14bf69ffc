# Formal model of overkit

## Trusted base

* The Lean 4.33.0 kernel, and the Mathlib lemmas used (all kernel-checked).
* Axioms: every theorem listed in `MANIFEST.json` depends on a subset of `propext`,
  `Classical.choice`, `Quot.sound`.  No own axioms, no `sorry`, no `native_decide`/`bv_decide`.
* The hand translation from C++ to Lean.  Every model definition cites the file and lines it
  mirrors.  Nothing in /repo is executed or compiled.
* General simplifications: machine integers are `Int` (no overflow), `double` is an ordered field
  (exact arithmetic; C18 and C19 allow any monotone rounding), `std::vector`/`array` are `List` or functions with explicit extents,
  MPI point-to-point messages are non-overtaking per (sender, receiver, tag) and otherwise
  complete in an arbitrary order, which the theorems quantify over.
* Undefined behaviour (out-of-bounds, empty optional, division by zero) is an explicit outcome
  (`none`) where the code can reach it, not a totalised default.
* `MAX_DIMS = 3` with padding dimensions `[0,1)` is replaced by an arbitrary number of dimensions
  `d`; the padding dimensions are never changed by the modelled code.

## Layout

`lean/Verif/Model/*` are the model definitions, `lean/Verif/Lemmas/*` helper lemmas, and `lean/Verif/Props/*` the property
theorems with non-vacuity examples; independent specifications are in the namespaces `Spec` at the top of these files.

## Wrong programs

`seeded/LOG.jsonl` has one line per edit of the model that was tried: the edit, the claim it breaks and the theorems
that failed.  Before line 931 the log is not complete: edits that did not compile in the model itself and edits that
turned out not to change behaviour were removed from it again.  From there on edits that do not change behaviour are
kept and say so in `theorems_tightened`.  Edits that do not compile in the model are not logged.

## Plan per property

| id | modelled | proof |
|----|----------|-------|
| C01 | `indexer::ToIndex/ToTuple`, both layouts, any rank | induction on the dimension list, mixed-radix positional system |
| C02 | interval and range operations | pointwise integer arithmetic per dimension |
| C03 | `PeriodicAdjust`, `GetPeriodSize` | truncated modulus laws |
| C04 | `MapToRange(range,tuple)` | per-dimension; negation witness for non-periodic dimensions, partial theorem otherwise |
| C05 | `MapToRange(range,range)` | negation witnesses; partial theorem for ranges inside one period |
| C06 | `MapToUniformGridCell` | floor-division characterisation |
| C07 | `CreateSubregions` | telescoping boundaries |
| C08 | `RangePointToCell`, `CartPointToCell` | per-dimension ownership of the lower corner |
| C09 | `ExtendLocalRange`, `RangeCellToPointAll` | per-dimension arithmetic |
| C10 | sorted-array set | invariant (strictly sorted) + refinement to a predicate, induction over histories |
| C11 | parallel-array map | same, to a partial function |
| C12 | `NextAvailableID` | induction on the sorted ID list |
| C13 | union-find with rank, compression, index shift | invariant by induction over histories, refinement to the equivalence closure |
| C14 | `Relabel` | negation witness, partial theorem (classes unchanged; representative not larger than old root) |
| C15 | local sweep + union-find + global merge | same label iff connected, for every assignment of points to processes |
| C16 | flood by component labels | reachability |
| C17 | iterated edge fill | iteration equals ball, duality |
| C18 | `region_hash` | bin of a contained point lies in the region's bin range |
| C19 | distributed hash | as C18 with per-rank ownership of bins |
| C20 | halo maps, pack/exchange/unpack | commuting updates for every completion order |
| C21 | send/recv maps | as C20 |
| C22 | collect maps | slot assignment; negation witness for row-major, partial theorem |
| C23 | disperse | fold of writes |
| C24 | linear-partition rendezvous | bin ownership |
| C25 | sort orders | sorted permutations of the same set are equal |
| C26 | `GlobalTag` | positional arithmetic |
| C27 | `request` waits | transition system over completion schedules |
| C28 | `DynamicHandshake` | transition system, inductive invariant, progress |
| C29 | `editor` | invariant over handle histories; negation for `Restore` |
| C30 | `event` | refinement to a set of listeners |
| C31 | `SyncEdits_` | fold over ranks |
| C32 | `Clear*` with aliased key view | explicit memory model; negation witness; partial theorem for at most two entries |
| C33 | grid/connectivity lifecycle | invariant over histories |
| C34 | `array::Resize` | via C01 |
| C35 | `ColumnSolve*` | `field_simp`/`ring` |
| C36 | Lagrange coefficients | `ring` |
| C37 | isoparametric maps and Newton loop | field algebra; loop invariant |
| C38 | k-d tree | structural induction |
| C39 | `BetterCell` fold | the fold computes the minimum of a total order |
| C40 | `subdivide` | structural induction |
| C41 | `MakeCellCoverRange` | per-dimension arithmetic |
| C42 | transfer loop | transition system; negation witness; partial theorem for in-order signals |
| C43 | flag passes | bit algebra on all flag values |
| C44 | mask pipeline | opening/dilation laws |
| C45 | distance sweep | induction on distance |
| C46 | donor fold | fold invariant |
| C47 | option maps | refinement to a total function |
| C48 | `FormatNumber` | induction on digits |
| C49 | `partition_pool` | search loop invariant |
| C50 | `CountDistributedMask` | sum over a tiling |
| C51 | `DetectNeighbors` | via C03, C15 extension lemma; interval arithmetic for Cartesian decompositions; negation witnesses |
| C52 | profiler `ActiveCount` along the waits of C27 | invariant: wait timer counts the requests still there; negation witness for `WaitAny` |
| C53 | `signal` without `MPI_Ibarrier` | transition system, inductive invariant, progress measure |
| C54 | `Model/Array.lean`: `Assign(Extents, First)` | Growing: direct; shrinking: witnesses |
| C55 | `Model/Array.lean`: rank-1 calls | Simulation by sequences, induction over histories |
| C56 | CoordsInCell with stencil fitting (GeometryOps.inl) | interpolation reproduces affine maps; first Newton step hits |
| C57 | Overlaps* with IEEE quotients by zero | barycentric coordinates; simplices of the subdivision cover the parallelepiped |
| C58 | Volume* | determinants of all six tetrahedra are equal |
| C59 | CellBounds, ExtendBox | fold invariant: containing and attained |
| C60 | OnCoordsEndEdit_ (exchange, then add periods), SetPeriodicLength | loop over distinct indices; C20 and C03 |
| C61 | compute_cell_volumes, point volume loop, exchanges | same; neighbouring cells of an owned point are in the extended cell range |
| C62 | overlap test with tolerance against scaled cell bounds | convexity of boxes, exact arithmetic |
| C63 | donor choice on top of receiver distances | from C45 and C46; negation witness on a full assembly; partial theorem |
| C64 | `StringReplace` | induction on the number of characters left to search |
| C65 | `partition_pool`, `CartLess_`, `map::Fetch` | lower bound of the binary search; counterexample by evaluation |
| C66 | all stages of `Assemble` after the search | masks and flags followed through the stages |
| C67 | as C66 | as C66; counterexample by evaluation |
| C68 | `DetectOccluded_` | pairwise masks bound the result; counterexample by evaluation |
| C69 | `DetectOccluded_` | dilation as distance (C17), masks expressed by the final flags |
| C70 | all stages of `Assemble` after the search | every stage defined (C16, C17); the covered region grows to the whole grid |
| C71 | BinDivide, Chunkify, HasChunk, LocalBegin/LocalEnd, chunk size check (XINTOUT.cpp) | every record covered once always (`C71_covered`); error iff size*(num-1) > count (`C71_partial`); claim without error refuted (`C71_false`) |
| C72 | MatchDonorsAndReceivers (XINTOUT.cpp:1491-1891): bins, fill, replies, unpack | bins disjoint and covering; fill/unpack invariants (`fill_spec`, `unpack_spec`), `C72_matching` |
| C73 | ImportXINTOUT after decoding: reading by chunks, MatchDonorsAndReceivers, DistributeGridConnectivityData, ImportConnectivityData, ImportDonors, ImportReceivers (XINTOUT.cpp), with the decomposition hash of C19 | chunks in rank order concatenate to the file (`chunkOf_all`), matching per grid (`matchGrids_spec`), owners from the hash (`hash_spec`), gathering is filtering (`distribute_spec`), `C73_import`, `C73_sides` |
| C74 | choosing donors in GenerateConnectivityData (AssemblerAssembly.cpp 4466-4549) | fractions with bounded denominators differ by more than the tolerance (`fraction_gap`), loop invariant (`Kept`, `donorStep_kept`), `C74_best` |
| C75 | collect, send, receive and disperse of one connectivity, joined (Exchanger.cpp 779-1553) | composition of `C22_partial`, `C22_interp`, `C25_delivery`, `C23_overwrite`, `C23_append`; `C75_exchange`, `C75_unique` |
| C76 | CreateCartesianDecompDims (Comm.cpp 43-137) | products are kept by moves of exact divisors (`move_prod`), the remaining factors divide the dimension (`improveDim_ok`), the rounded mean minimizes the squares (`mean_spread`); `C76_partial`, `C76_false`, `C76_square` |
| C77 | captured_exception::Sync with the error classes (Exception.hpp 126-155, Error.hpp) | minimum over processes (`allMin_spec`), first process with an error; `C77_partial`, `C77_false`, `C77_hangs`, `C77_detects` |
| C78 | BroadcastAnySource (CommunicationOps.cpp 37-49) as an asynchronous system | invariant `Inv` over all executions (`inv_step`), progress, and a measure that grows with each event (`work_step`) |
| C79 | floating_ref_generator and floating_ref (FloatingRef.inl 6-49, 79-95); conversions between classes are not modelled | one-to-one correspondence of generators and heap cells kept by all events (`step_spec`), references follow (`C79_partial`), exact definedness (`C79_defined`), `C79_hollow`, `C79_overwritten` |
| C80 | InferBoundaries_ (AssemblerAssembly.cpp 2694-2791) within the whole assembly | edge of the active points by C17, later stages leave the flags alone (`after_cut`) |
| C81 | CutBoundaryHoles_ (AssemblerAssembly.cpp 2793-3401) within the whole assembly | every mask agrees with a region of the specification: edges and dilation by C17, covered cells (`cover_agree`), the number of passes is the least sufficient one (`coverLoop_gap`), flood fill by C16 (`holes_agree`) |
| C82 | LocateOuterFringe_ (AssemblerAssembly.cpp 3403-3520) within the whole assembly | outer edges and dilation on the index space extended by the exterior (`exterior_edge`, `outerMask_agree`, `layout_exterior`) |
| C83 | event::Trigger with listeners that unregister themselves (Event.inl 17-24), Bind/Unbind/OnComponentEvent_ of exchanger and assembler, CreateComponent/DestroyComponent | invariant tying bound objects to registered listeners (from C30); the loop succeeds iff only the last entry is removed (`visits_some`) |
| C84 | Bind, OnConnectivityEvent_, Update_, CreateLocals_, DestroyLocals_, UpdateSourceDestRanks_ (Exchanger.cpp 101-280, 282-777) under event sequences | invariant over histories; C24 applied to the connectivities of the manifest (`sub_consistent`, `updateRanks_spec`); an edit without the relevant flags changes nothing (`honest_same`) |
| C85 | DetectOverlap_ (AssemblerAssembly.cpp 689-2514) for all processes: fragments, fragment hash, candidate fragments, requests, search, aggregation, filtering of the data per M process, both sides | item lists sorted by point (`items_eq`), sources own the cells they are named for (`items_spec`, `sent_own`), the scatter through the inverse order is a sort (`leftOrder_spec`, `scatter`, `overlapM_eq`), sorted lists with equal members are equal |
| C86 | as C85, with the geometry of multilinear cells as a specification | the hash returns every fragment whose box contains the point (`lookup`, from `DHash.build_and_query`), every accepting cell is in such a fragment (`encloses`, `fragment_has`), the search and the aggregation keep the preferred cell (`query_best`, `items_eq`) |
| C87 | as C85 | `lookup`, `candidates_defined`, `accel_defined` (from C38), `items_eq`, `sides_defined` |
| C88 | as C85, with `Coll.collect` (C22) on the listed cells | `collect_ok`: every process that holds a vertex is asked (`asked`: its fragment's box contains the image of the cell, C41_cover) and is sent the cell (`mem_sent`); images have the same stored vertices (`sameCell`); then `C22_partial` |
| C89 | as C88, with `Coll.interpStep` (C22) and `SR.run` (C21) on the lists of overlap; `linCoefs` | `delivers`: the two sides list the same points in the same order (C85_sides), so the maps match (C21) and slot `q` from `a` to `b` is the same entry on both; `interp_cell`: the reduction over vertices is the multilinear interpolant |
| C90 | `GenerateConnectivityData_`: `donateMaps`, `donateBuffers`, `localDonors`, `sendDonors`, `recvDonors`, `fillM`, `fillN`, `fill` | `C90_learn`: the two sides list the same points in the same order (C85_sides), so the reverse maps match (C21); `localDonors_sorted`, `scatter_sorted`: merging by receiver index keeps one donor per receiver |
| C91 | `fill` (C90) composed with `exchangerWorld`, `exchange`: `Xch.update` (C24), `Xch.MapsFor` (C25), `Xch.Exchange` (C75) | `consistent`, `not_shared`, `once`, `fill_collect`: filled connectivities meet the hypotheses of C24, C25 and C22; then C75; `interpolated_cell` for the values |
| C92 | order of communication in `DetectOverlap_` (volumes) to `GenerateConnectivityData_`: `Plan.rounds`, `Plan.prog`; MPI as ordered channels: `step`, `complete` | programs split into stages common to all processes; `safe_of_good`: if at every wait all stages so far are balanced on the communicators waited for, the process in the earliest stage can go on; `forward_ok`, `reverse_ok`, `neighbors_ok` |
| C93 | `DetectFormat`, `ReadGlobalInfo`, `ReadGridInfo`, `ReadDonors`, `ReadReceivers`, `SwapEndian` on the bytes of the files: `readGrid` | the format is described by a writer (`Spec.ho`, `Spec.x`), which accounts for every byte of the sample files in /repo/tests/data/XINTOUTTests; `At f off l` (the bytes `l` are at an offset) splits along the writer, offsets of grids by induction (`skipGrids_at`), parts of a dataset by `readInts_at`, `readDoubles_at` |
| C94 | `Problem.assemble` on two decompositions; `Ovl.overlapN` on two worlds | `Both R` relates partial results; every operation on masks is a function of the index space and the values in it (C16, C17, C50), then each stage preserves `Alike`; the search picks the best accepting cell with ties broken by index (C86), so `listed_iff` does not mention processes. Values a process holds for points of others are those of the owner (C60, C61 and the halo properties); volumes are exact |
| C95 | `GeometryComponent.cpp` 76-99, 113-173, 236-317, 366-500, 607-618 (`StateComponent.cpp` alike), `Domain.cpp` 130-306 | invariant over histories on all processes; listeners are described by the list of calls alone |
| C96 | `Problem.assemble`, `handOver`, `Ovl.fill`, `Xch.update`, `Ovl.exchange` composed | the entries that assembly chooses are exactly those that the search lists for the chosen grid (`entry_iff`), so they meet the hypotheses of filling and exchanging; uniqueness from C46; linear fields from the fact that coordinates are interpolated exactly; decompositions from C94 |
| C97 | `ReadXINTOUT` and the functions it calls as trees of collective operations with the places where errors are found | confluence of completing operations (one execution that ends decides all), grid by grid; processes of the first grid that are apart wait for each other forever |
| C98 | `collect_interp_threaded` at the level of single memory accesses, on top of the model of C22; `GetThreadCount_` | what other threads do not write is as if a thread were alone (invariant over interleavings); footprints of threads; each thread alone computes what C22 says |
| C99 | `optional`: raw storage, `Present_`, all constructors, assignments, `Assign`, `Reset`, `Release`, destructor | storage of each variable stands for its value, preserved by each call (induction over calls) |
| C100 | `handle` on top of the model of `optional` (C99), with the function that frees | each handle stands for what it owns, preserved by each call; counting owners of a resource |
| C101 | the arrays, editors, `Resize`, events and default entries of `overlap_n`, `overlap_m`, `connectivity_n`, `connectivity_m`; `UpdateMask_` | state as a function of the history of calls (induction over calls) |
| C102 | the maps of `assembly_data` that persist between calls of `Assemble`, with the entries each stage reads and inserts; the stages themselves as in C43 and C66-C70 | simulation of the stages on maps with arbitrary old entries by the stages without; false part by evaluation of two histories |
| C103 | `Bind`, `Unbind`, `EditOptions`, `OnGridEvent_`, `OnOptionsEndEdit_`, `Update_` of the assembler with `CreateGrids`/`DestroyGrids` of the domain; options as in C47 | invariant over all sequences of calls against a specification of what the user sees; C47 for each call on the options |
| C104 | `exchanger::Send`/`Receive`, `send_impl`, `recv_impl` and waiting for their requests, any number of operations and processes; MPI with messages in order per sender, receiver and tag; packing and unpacking as in C21 | invariant over all executions that relates every message to the use of the operation it belongs to; progress by the process whose awaited use is the earliest; termination by a lexicographic measure |
| C105 | the functions of the C interface that allocate and delete: parameters, contexts, shared contexts, domains, assemblers, exchangers, requests; contents of objects left out | invariant that relates variables to heap cells, with the number of shared pointers of every context equal to the number of variables that hold it; one lemma each for gaining and losing an object or a shared pointer |
| C106 | `RetrieveDecompInfo` with `DynamicHandshake` inside, all processes; packing of ranges | transition system that contains that of C28; inductive invariant; measure for the part after the handshake |
| C107 | `distributed_field::Fill(range, value)` on all processes, with the exchange of C20 at the end | characterisation of the points written by each process; refinement to C20 |
| C108 | `timer`; `profiler::Start/StartSync/Stop/Enable/Disable/WriteProfile` | induction on the history; invariant relates each map entry to the nesting depth and the active time of the history |
| C109 | `domain_base::CreateGrid(s)/DestroyGrid(s)`, `grid_info::grid_info`, collective operations of `grid::grid` and `grid::~grid`, `BroadcastString` | programs over collective operations with values; confluence; every part runs to its end on its group of processes; invariant relates the maps to the history |
| C110 | `increase_handle`, the three handle classes, `logger` with all its members: moves, swap assignment, `Reset`, destructors, the four `Log` functions, `SyncIndicator`; sections as used by the library, with exceptions (`Model/Logger.lean`) | invariant over all operation sequences relating counters to the sum over handles; induction on code for sections |
| C111 | `StringPrint`, `StringPrintAppend`: counting and splitting, one `snprintf` per argument; `printf` itself as a parser of formats with a parameter for writing single arguments (`Model/StringPrint.lean`) | induction on the arguments; splitting lemmas for formats without `%%` |
| C112 | `Serialize` as a program of barriers and actions for each process, executed with arbitrary interleaving; barriers are left when all processes have entered | invariant with the number of barriers that have been left |
| C113 | `scope_guard`: constructors, destructor, move assignment, `Dismiss`; functions are numbers, calls are recorded | induction over operations with a permutation invariant |
| C114 | `AssignInitializerList`, `AssignIterators`, `ConstructFromInitializerList` for bool, `array::Assign(Extents, ValuesList)` | induction on the loops; negation with a witness |
| C115 | the loops of ArrayOps.hpp with the conversion of indices to `int`; `ArrayNone` … `ArrayAll`, `ArrayMin`, `ArrayMax`, `ArraySum` over integers, `ArrayFill` from iterators | induction on the loops; negation with a witness of 2^31 + 1 elements |
| C116 | array's vector and view (Array.hpp:46-241, 290-363) over a heap of blocks; vectors replace their block when it is too small | refinement of a program over plain values, by an invariant: one owner per block, views point to the own block |
| C117 | ForEach.hpp:32-94 (recursion over the helpers), array_view::Fill with an interval (ArrayView.hpp:147-153) | the nested loops are a fold over the list of tuples, sorted by the order of the layout; indices by C01 |
| C118 | the operations of an exchanger on one process with the manifest, the events of the component and the lifetime of maps and operation objects (Exchanger.cpp 102-280, 779-1553); contents, ranks, maps and parameters are arbitrary | `update_spec` and `trigger_spec` for sequences of events; invariant `Full` over histories, from what each call changes (`Change`). Partial: not proved that the ranks stored with an operation are those computed last for its side |
| C119 | `Verif/Model/ComponentCalls.lean`: SyncEdits_, CreateConnectivities, DestroyConnectivities with its checks, OnGridEvent_, CreateGrids and DestroyGrids as far as the component is concerned, EditConnectivityM/N, RestoreConnectivityM/N, Resize and table edits, EditComponent, as programs of collective operations | each program runs to the same result on all processes (`Runs`), with an invariant that relates the processes to an abstract world; `apart` for a process that leaves a call out |
| C120 | `Verif/Model/BoxAlgebra.lean` (and `Box`, `unionBoxes` in `Verif/Model/RegionHash.lean`): all functions of Box.inl, Contains, Empty, Includes, Size and Volume of floating-point intervals; NaN, infinity and signed zero are left out | the set of points of a box as specification; linear arithmetic per dimension; products over dimensions for volumes |
| C121 | `Verif/Model/CTables.lean`: the Get, Edit, Restore and Resize functions of core-c/ConnectivityM.cpp, ConnectivityN.cpp, OverlapM.cpp, OverlapN.cpp with Editor.inl and row-major positions in flat memory; barriers (C119) and the mask of overlap_n (C101) are left out, one type of entries | a specification without memory; simulation by induction over histories; positions of columns are injective because quotients and remainders recover the indices |
| C122 | `Verif/Model/ExchangerComm.lean`: `Bind`, `Unbind`, `OnConnectivityEvent_`, `Update_` and the communication of `UpdateSourceDestRanks_`; handshakes are collective operations (their result is C28), local work of the updates is left out | programs made of stages (C92) are closed under concatenation; all processes keep the same emptiness of the manifest; induction over events |
| C123 | `Verif/Model/ImportCalls.lean`: the calls of `ImportConnectivityData`, `ImportDonors` and `ImportReceivers`; overlapping edit sessions of a grid are made one after the other; values written to the tables are in `XintoutImport.lean`; the sum of counts is a further kind of collective operation in `ComponentCalls.lean` | the calls of a process without a grid are calls that do nothing, so all processes make the same history, to which the theorem on histories (C119) applies; induction over the grids for its legality |
| C124 | `Verif/Model/ImportComm.lean`: the messages and waits of matching, distribution, construction of a hash and retrieval of bins; contents of messages are in `Xintout.lean`, `DistHash.lean` and `Retrieve.lean`; a handshake is a collective operation with a given result; tags are communicators | each part is a list of stages, balanced on the communicators it waits for (C92); the receives of answers stay open over the synchronization points, whose communicator they do not use |
| C125 | `Verif/Model/OverlapComm.lean`: the messages, waits and collective operations of `DetectOverlap_` and the maps of ranks that decide about them; what the search finds is given (C85, C86); handshakes and broadcasts are collective operations; tags are communicators; the transfer of fragments (1422-1645) is C42 | for each tag, the two nested loops visit the pairs of grids of one M grid in the same order, so each round is balanced; rounds are chained as stages (C92, C124) |
| C126 | `Verif/Model/Padding.lean`: the functions of ranges, carts and decomposition that loop over `NumDims` or `MAX_DIMS`, written with stored dimensions, and `grid::params` with its assertions; functions that loop over all stored dimensions are those of `Range.lean` and `Cart.lean` taken at `MAX_DIMS` | every stored dimension is either one of the grid or 0 to 1; points and search periods by induction on the number of stored dimensions; parameters by induction on the calls |
| C127 | `Verif/Model/GeometryCalls.lean`: SyncEdits_, CreateGeometries, DestroyGeometries with its checks, ClearGeometries, OnGridEvent_, EditGeometry, RestoreGeometry, changes of coordinates and flags, SetPeriodicLength, `geometry_info`, EditComponent as programs of collective operations; what processes store between them is `GridData.lean` (C95) | each program runs to the same result on all processes (`Runs`), with an invariant that relates the processes to an abstract world; `apart` for a process that leaves a call out; `geometry_info` by `BroadcastAnySource` from the process of rank 0 |
| C128 | `Verif/Model/MapStorage.lean`: `value_wrapper<T,false>` with its constructors, assignment by swap and destructor, the moves of `std::vector::insert`/`erase`/`reserve`/assignment over entries, `map::Insert`, `Fetch`, `Erase`, `EraseIf`, `Clear`, `Reserve`, `Find`, `operator()`, copy and move of maps, over a heap of objects | the moves of entries amount to list insertion and removal with one object created or destroyed (`shiftDown_eq`, `shiftUp_eq`, ...); invariant: live objects and entries of maps correspond one to one |
| C129 | `Verif/Model/AllOptions.lean`: all thirteen tables of `assembler::options`, each of the get/set/reset functions in C++ and C, `AddGrids`, `RemoveGrids`, the resets of `OnOptionsEndEdit_`; `double` is rational, enums are their values | every function does the event it is for on its table and leaves the others (`does_set1`, `does_set2`, `Does.bind`); tables by C47 |
| C130 | `Verif/Model/Lifetimes.lean`: destructors, moves and the generated move assignment of `domain`, `grid`, components and their objects as steps on a multiset of resources (pointers to contexts, communicators, locations, grids, entries of events), on one process; members nothing refers to are left out | what exists is exactly the sum of what variables own (`Inv`), kept by every step; each destructor takes away exactly its own (`*.destroy_eq`), which needs that locations are unique and every entry has its event |
| C131 | `Verif/Model/HaloPool.lean`: exchangers by data type and their reuse, posting, packing, local copies, unpacking and completion as steps, any interleaving; MPI matches messages and receives between two processes in order and may read a send buffer at any time until the send completes; that the maps fit together (`Fit`) is assumed (maps are C20) | an invariant with the number of messages delivered between each two processes (`Inv`, Lemmas/HaloPool.lean): the `i`th message on its way belongs to exchange `D + i`, as does the `i`th receive, and exchanges in progress have distinct exchangers; completion by a schedule built from the invariant |
| C132 | constructors, move operations and destructors of domain, exchanger and assembler as far as generators, references and handles are concerned; `Bind`, `Unbind`, `event::AddListener`, `Trigger`, `event_listener_handle::Reset` | refinement: a view by identities determines the whole state up to heap cells; preserved by each operation |
| C133 | `Verif/Model/ArrayViews.lean` on top of `Verif/Model/ArrayStorage.lean`: views as pointers into blocks with extents; making, copying, reshaping and resetting views, access by number, all `Fill`s except that over an interval, with sources that are read anew in each iteration; memory that was freed is not handed out again | the specification has no memory: a view sees an array from a position on (`Spec.World`), and `Spec.follow` says where the elements of an array are after each operation; the invariant `Rel` extends that of C116 by lower bounds of the capacities and by the block each view points to |
| C134 | `Verif/Model/DataTypes.lean`: the tables of data types and all switch statements over them; memory as bytes, two's complement integers, `sizeof` and byte order of the platform left open; conversions to the types MPI knows. Values of floating point types are the number their bytes make | the choices by cases; `roundtrip` (read, convert, convert back, write is the identity on bytes) and induction on the number of values |
| C135 | `Verif/Model/CellOps.lean`: OverlapsCell and CellBounds for all types and dimensions, reading the corners from coordinate fields (lists in the order of memory); an entry of a box that was never written is `none` | reading a field gives the coordinate of the point; then the theorems on single cells (C37, C57, C59) |

## Disagreements between the code and its stated intent

Each entry is a theorem: the full statement is kept as `Cxx_statement` and refuted by a concrete
witness `Cxx_false`; what does hold is proved beside it.

* **C04** (`C04_false`): in a non-periodic dimension `MapToRange(range,tuple)` moves a tuple lying before
  the target range by the extent of the index space, so it can return a different point.
* **C05** (`C05_false`, `C05_undefined`): `MapToRange(range,range)` on a target range outside the first
  period returns an image overlapping the adjusted target, not the target; for ranges outside a
  non-periodic index space it dereferences an empty optional.
* **C09** (`C09_false`): `ExtendLocalRange` by two (as grids do) leaves a non-periodic index space when
  the neighbouring process is one layer thick.
* **C14** (`C14_false`): `Relabel` makes the *largest* member below the old root the representative, not
  the smallest member.
* **C18** (`C18_flat_undefined`): a collection of boxes flat in one dimension gives bin size zero; the
  bin number is then the integer conversion of NaN.
* **C19** (`C19_gap_undefined`): asking for a point in a gap between regions whose bin lies on a process
  that stores no region reads outside an empty array.  The two callers only ask for covered points.
* **C22** (`C22_false`, `C22_max_false`, `C22_thin_undefined`): with row-major arrays a cell that straddles
  processes is assembled at mixed row-major/column-major positions; the MAX reduction over floating point
  values starts from the smallest positive number, so the maximum of a negative field is positive; a cell
  with a vertex on a process that is not a neighbour reads table entries that were never written.
* **C24** (`C24_false`): the linear partition has one entry per grid point, so if two connectivities target
  the same point from different processes, both receivers are given the rank of one of the donors.
* **C26** (`C26_false`): the tag multiplier is the number of connectivities at creation time; operations
  stay alive when other connectivities are created, so tag 2 of one set collides with tag 1 of the next.
* **C51** (`C51_thin_false`, `C51_duplicated_false`): neighbours are detected one layer around the local
  range while grids extend it by two or three, so with processes one point thick the owner of a stored
  point is not a neighbour and the halo exchange leaves the point stale.  With duplicated periodic
  storage and a one-layer process at the seam the relation is not symmetric, so a halo exchange waits
  forever.
* **C52** (`C52_false`): `WaitAny` starts the wait timer of every request but stops it only for the one that completed,
  so the profile keeps counting after it returns.
* **C29** `edit_handle::Restore` (Editor.inl:126-132) decrements the reference count but keeps the editor pointer, so the destructor decrements again. The count becomes -1 and the next edit session never ends. `ImportXINTOUT` does this at src/extras/XINTOUT.cpp:2507. Proved as `C29_false`.
* **C32** `ClearConnectivities`/`ClearOverlaps` pass a view of the keys of the map which the destroy loop erases from. With three or more entries some survive (`C32_false`; `C32_leftover`: exactly those at odd positions except the last), and from two entries on the loop reads cells behind the end of the key array (`C32_undefined`). A caller passing its own array is fine (`C32_copy_partial`). The assembler calls both functions at the start of every assembly.
* **C54** `array::Assign(Extents, First)` overwrites all old cells from the source and never removes cells, so assigning a shorter view reads behind its end (`C54_false`); afterwards the vector is longer than the extents and `Append` puts the value outside the new extents (`C54_append_false`).
* **C37** The inverse map of oriented-uniform cells projects on each edge separately, so it is an inverse only for orthogonal edges. The type's name promises that, nothing checks it (`C37_sheared`).
* **C56** In one dimension the test whether the four-point stencil fits has its comparisons inverted (`Shifted-1 < Begin && Shifted+2 >= End`); it never holds, so no local coordinates are ever returned: `C56_never`, `C56_false`.
* **C57** A cell with three coincident corners (pole of a polar grid with a collapsed corner) accepts every point of the plane: every quotient is NaN and every rejecting comparison false: `C57_collapsed`, `C57_false`.
* **C58** Uniform and rectilinear cells whose coordinate decreases along an odd number of axes have negative volume; the other geometry types use absolute values: `C58_false`, `C58_false2`.
* **C59** Uniform and rectilinear cells with a decreasing coordinate have empty bounds although the overlap test accepts their points, so they are never found by a bounding-box search: `C59_false`. (In one dimension the bounds' second and third components are left uninitialised; see C135.)
* **C60** `SetPeriodicLength` triggers the coordinates event but does not update the coordinates of periodic images, so until the next edit listeners see images shifted by the old length: `C60_false`.
* **C62** The simplex tests allow each barycentric coordinate to be negative by the tolerance, so near a corner a point may be outside the bounds by two (2-D) or three (3-D) tolerances times the cell size, while the search boxes grow by one tolerance per side; such a point is accepted by the cell but not found by the accelerator (`C62_false`).
* **C38** When every active cell is flat in the binned directions the mean cell length is zero and the number of bins is computed by converting infinity to an integer (`C38_flat_undefined`).
* **C42** The sender answers signals in the order in which `MPI_Testsome` reports them. MPI guarantees the order of matching but not of completion or reporting, so the answers to two outstanding signals of the same receiver may be swapped and the data of one fragment is then stored in the buffers of another (`C42_false`; the buffers may even be too small).
* **C44** With `FringeSize` 0 the mask `OverlapMinimizationMask` of `MinimizeOverlap_` is not eroded and still contains occluded points that were cut as boundary holes, so points that were not active any more are removed again and flagged `OVERLAP_MINIMIZED` besides `BOUNDARY_HOLE` (`C44_false`).
* **C45** `GenerateConnectivityData_` initialises the distances with `+MaxReceiverDistance` and flips the sign only for points reached by the dilation. A receiver farther from the boundary of the receiver region than the cap keeps a positive distance and counts as a valid donor point (`C45_false`).
* **C63** Consequence of C45: with fringes wider than `EdgePadding` + 1 a receiver in the middle of a thin or fully receiving grid is used as a donor although connections are disjoint (`C63_false`, `C63_partial`).
* **C48** `FormatNumber(int)` calls `std::abs` on the number, which is undefined for the least number of the type (`C48_undefined`).
* **C64** `StringReplace` with an empty substring finds it at every position including the end of the text, and the position moves by the length of the replacement only, so the loop never ends (`C64_false`).
* **C65** `CartLess_` returns true as soon as any bound of the left index space is less than that of the right one, so that of two nested index spaces each is less than the other. The binary search of the map then misses stored keys: after fetching `[0,4)`, `[-1,5)`, the index space `[0,4)` is not found again and gets a second entry, and another partition is created and returned (`C65_false`).
* **C67** `MinimizeOverlap_` clears `ACTIVE` and `OUTER_FRINGE` of a removed point, but not `FRINGE` (`C67_false`).
* **C68** The two passes of `DetectOccluded_` that are to exclude points overlapped by occluded points overwrite the occlusion mask with the negation of the occlusion of the overlapping cell, instead of restricting it. A point that is finer than the overlapping cell, none of whose vertices is occluded, becomes occluded (`C68_false`).
* **C70** `DetectOccluded_` reads `PairwiseOcclusionMasks({NGridID,MGridID})` for every overlap of two grids that occlude each other, also when grid M is not overlapped by grid N, e.g. when N lies inside one cell of M; there is then no such mask (`C70_undefined`, `C70_false`). The loop of `CutBoundaryHoles_` that widens the cover mask until nothing is uncovered never ends when the mask is empty at the start, which happens if grid M is periodic in all directions and overlapped by N at all of its points (`C70_loops`).
* **C71** `ReadDonors`/`ReadReceivers` compute `NumLocalDonors = LocalEnd - LocalBegin`, which is negative on a process whose chunk would start behind the end of the records (`ChunkSize*(NumChunks-1) > Count`, e.g. 5 records divided among 4 processes 2 each); `NumLocalDonors*sizeof(double)` is then a huge unsigned number, and reading fails with "chunk size too big" although the file is fine.
* **C76** `DimsVariance` squares deviations in `int`: with 257*257 processes and the proposal (66049,1) of MPI_Dims_create it overflows (undefined behaviour).
* **C77** `Sync` creates the error of lowest code only on processes without an error; a process with an error of another code keeps it and receives the path that belongs to the other error. With `mpi_not_initialized_error` next to a file error the broadcasts do not match.
* **C79** Move construction and move assignment of `floating_ref_generator` write through the moved pointer without checking it for null, so moving from a moved-from grid, domain or component is undefined; and after `A = std::move(B)` references obtained from `A` before are dangling although `A` exists.
* **C83** Destroying a component to which something is bound is only defined if the bound object registered the last component listener: `Unbind` erases the entry while the range-based `for` in `event::Trigger` is at it, so the following entry is skipped and the loop ends up reading a destroyed entry. Two exchangers on one domain, or an assembler and an exchanger bound in that order, suffice (`C83_false`, `C83_defined`).
* **C84** An edit of the extents of a connectivity's M side alone (`EDIT_M_EXTENTS`) does not refresh `DestinationRanks`/`SourceRanks`, although only the process with the lower corner of a donor cell may have a destination rank; the same holds for `EDIT_N_POINTS` (`C84_false`).
* **C86** Bounds of cells are enlarged by the factor 1 + 2*tolerance, but a multilinear cell with local coordinates up to 1 + tolerance in two dimensions reaches further: the cell with vertices (0,0), (1,0), (0,1), (2,1) and tolerance 1/2 accepts (15/4, 3/2), its enlarged bounds end at 3 (`bent`, `C86_false`). The point gets no overlap.
* **C87** An isolated active point (no active cell around it) makes `FragmentHash.RetrieveBins` read bins of a process without regions (`gap`, `C87_false`).
* **C88** A process is told of a cell of its neighbour only if one of its own fragments contains a query point. A process with no active cells of its own has no fragments, so it does not take part in the collect operation for cells that have vertices on it, and the neighbour waits forever (`strand`; `layer`: a process whose local range is the last layer of points). The same happens across a period with a nonzero periodic length, as the halo image of the cell is at shifted coordinates (`seam`).
* **C88** With duplicated periodic storage the owner of the last cell lists it as [n-2, n), inside the index space, and does not see that the process holding point 0 needs it; that process lists it as [-1, 1) and waits for point n-2 (`twice`).
* **C90** With duplicated periodic storage, a donor cell at the lower end of the index space touches the process with the copy at the upper end. The neighbour shifts the cell so that it lies there; its lower corner is then the copy, which is a local point, so both processes take themselves for the owner (`twice`).
* **C91** Consequence of the disagreement of C90: with duplicated periodic storage both owners send, and the receiver posts a receive for one of them only. The other message is never received, so its sender waits forever if the message is too long for MPI to buffer it.
* **C93** Whether a file of the standard format has IBlank data is decided by comparing the length of the record after those of the first grid with the size of its IBlank data (XINTOUT.cpp:589-602). Without IBlank data that record is the header of the second grid, of 28 bytes; when the first grid has 7 points, the file is taken for one with IBlank data, and the second grid is not found (`C93_false`).  Of a file with less than four bytes uninitialised bytes are used to find the format (XINTOUT.cpp:650-672, `C93_short`).
* **C95** `DestroyGeometriesForDyingGrids_` (`GeometryComponent.cpp:85-99`, same in `StateComponent.cpp`) destroys the geometry of every dying grid without asking whether there is one. With `OVK_DEBUG` the assertion at line 379 fails; without it listeners hear of the destruction of a geometry that never existed. `ConnectivityComponent.cpp` and `OverlapComponent.cpp` select existing records only. Proved: `C95_false_debug`, `C95_false_release`.
* **C97** An error in one grid makes its processes leave the loop of `ReadXINTOUT` over the local grids and wait in `Error.Check(Comm)` on the domain. If they share a later grid with processes that have found no error, those wait for them in `ReadGridInfo`: reading never ends (`sharing`, `C97_false`; in general `C97_apart`). `MPI_File_open` on the chunk communicator is not followed by `Sync`, unlike all other errors there; if it fails on some of the processes only, they close the file or leave while the others go on (`partly`, `C97_open_false`). Besides, `ReadGridInfo` reports the path of the HO file when the X file cannot be opened (XINTOUT.cpp:727).
* **C98** Scratch arrays are allocated for the number of threads at creation, but the parallel region in `Collect` uses the number at that time; with more threads (`omp_set_num_threads` in between, or dynamic adjustment) `VertexValues_(iThread)` is out of bounds (`C98_false`). `GetThreadCount_` has all threads write a shared variable without synchronisation (`C98_count_race`).
* **C99** `operator=(optional &&)` leaves the value object of the source alive with `Present_` false, so it is never destroyed (`C99_false`); there is no check for self-assignment as there is for copies, so a self-move reads a destroyed value (`C99_self_undefined`).
* **C100** The move assignment of `handle` is defaulted: it overwrites `Handle_` and `Delete_` without calling the old `Delete_`, so the resource owned by the target is never freed (`C100_false`).
* **C101** `overlap_n::Resize` triggers the events and does not call `UpdateMask_`, so that `Mask()` (and `ovkGetOverlapNMask`) shows the points of before until the next edit session of points ends; `Resize(0)` on a nonempty overlap leaves a nonempty mask (`C101_false`). Assembly edits points after each `Resize`.
* **C102** `DetectOccluded_` reads `PairwiseOcclusionMasks({N,M})` when `{M,N}` overlaps (3668, 3712, 3790) without checking that `{N,M}` does. `assembly_data` is never cleared, so after grids have moved apart in one direction the mask of an earlier assembly is used, which has nothing to do with the present grids (`C102_stale`).
* **C103** `Unbind` (also when the one of the four components is destroyed, 340-343) does not check that no edit session is open; the end of the session then uses `*Domain_` although it is empty (`C103_unbind`). `EditOptions` does not check that the assembler is bound. `Assemble` does not check that options are not being edited, and during a session a setting for `ALL_GRIDS` also holds for a grid with itself (example in Props/OptionsLife.lean). `DisjointConnections` of a grid with itself is never reset (266-272).
* **C104** Nothing prevents starting a send or receive again while its last request is pending: `Buffers_`, `MPIRequests_` and `Values_` are overwritten while MPI uses them (`C104_restart`). `CreateSend`/`CreateReceive` check that the ID is new but not that the tag is; two operations of a connectivity with the same tag exchange values if they are started in different orders (`C104_same_tag`).
* **C105** After `ovkShareContext` the variable of the context is not null although the program no longer owns the context; the check of `ovkDestroyContext` accepts it, and destroying it is undefined (`C105_destroy_view`). Destroying an exchanger with pending requests is not checked either (`C105_destroy_early`).
* **C106** A rank given twice to `RetrieveDecompInfo` makes the caller wait forever: it posts two receives, but the handshake, which returns a set, lets the other process send only once (`C106_twice`). No caller does this.
* **C107** With duplicated periodic storage, `distributed_field::Fill` of a range that reaches outside the index space depends on the decomposition: a tuple equal to the last (duplicate) point is written as such by its owner, but a process that owns the first point and not the last one writes the first point too (`C107_duplicated`). A process that owns both writes only the last one.
* **C108** Enabling profiling between a `Start` and its `Stop` (for example by a callback, or by another thread of control inside a timed section) makes `Stop_` look up a map entry that does not exist; in a release build this is undefined behaviour (`C108_enable_inside`). If the entry exists from earlier use, `ActiveCount` becomes -1 and the timer never stops again after its next start (`C108_unmatched`).
* **C109** Collective operations are guarded by `if (Logger.LoggingStatus())` (Domain.cpp:94, 158, Grid.cpp:119, and many places in AssemblerAssembly.cpp). The threshold is a setting of each process, nothing says that it has to be the same everywhere; if only rank 0 is to write messages, creating a grid never returns (`C109_thresholds`; in MPI the length of the name is taken for the rank of the root, then the processes wait in different operations). All other properties about several processes assume equal thresholds.
* **C111** `StringPrint` does not understand `%%`: it looks for a `%` that is not followed by `%`, which the second one of `%%` usually is (TextProcessing.inl:104, 125, 136). "5%% of %i" with one argument fails the debug assertion, and without it passes "% of %i" to `snprintf`, which is undefined; "100%%" without arguments stays as it is. No format of the library has percent signs.
* **C110** A logger that is moved while a handle refers to it keeps the amount for good, and the handle later changes the counter of the old object (`C110_moved`); both are possible because `logger` has defaulted moves (Logger.hpp:103-106). The library only moves contexts while no handle exists.
* **C114** `vector<bool>::Assign` (Vector.hpp:50-88) overwrites all old elements with values from the list before it appends; if the list is shorter it reads behind the end of the list, and the vector does not shrink (`while (Iter != End)` then does not end either). `array<bool>::Assign(Extents, {…})` inherits this. `C114_false` has a witness.
* **C115** `array::operator[]` and `array_view::operator[]` have a parameter of type `int` (Array.hpp:710-711, ArrayView.hpp:333) although counts and loop counters are `long long`; for more than 2^31 elements the index becomes negative. `ArrayCollapse` of views counts with an `int` (ArrayOps.hpp:329).
* **C120** `ScaleBox` has no test for an empty box, unlike `GrowBox`: scaled by 0, `MakeEmptyBox(3)` becomes the point (-1/2,-1/2,-1/2), and by a negative factor it becomes a region with points. `MoveBox` has no test either: moved by an amount at which the spacing of doubles exceeds 1 the empty box becomes a point (`C120_move_empty_rounded`).
* **C121** `ovkRestoreConnectivityNSourceRanks` (core-c/ConnectivityN.h:57) and `ovkRestoreOverlapNSourceRanks` (core-c/OverlapN.h:53) are declared but not defined; the library defines them as `ovkRelease...` (core-c/ConnectivityN.cpp:268, core-c/OverlapN.cpp:272). A C program that edits source ranks cannot end the session, so listeners are never told and the size can never be changed (`C121_stuck`). Not modelled, found by comparing all names: `ovkComponentHasType` (core-c/Domain.h:83) is declared but not defined; `ovkLocalStateCount` and `ovkLocalGeometryCount` are defined but not declared.
* **C126** `grid::params::SetCart` (Grid.cpp:236-255) checks that the cart has the dimension of the grid and begins at 0, but not that unused dimensions are 0 to 1 and not periodic, although `SetGlobalRange`, `SetLocalRange` and `SetPeriodic` (Grid.cpp:257-301) do; conversely only `SetCart` requires global ranges to begin at 0.
* **C127** `geometry_info` (Geometry.cpp:302-327) takes the periodic length when the geometry is created, and `SetPeriodicLength` (Geometry.cpp:122-137) does not change it, so `GeometryInfo(id).PeriodicLength()` returns the old length on all processes afterwards. In /repo only the type is used (AssemblerAssembly.cpp:1558), so assembly does not depend on it.
* **C130** assigning to a domain that has components is undefined. `domain &operator=(domain &&) = default` (Domain.hpp:91) assigns the bases first: the old context, communicator, location, grids and grid event are gone when the old components are destroyed, and these reset their listener through the old event (Event.inl:64-72), use the grids of their objects (Geometry.cpp:41-49) and the domain (GeometryComponent.cpp:40-50). Witness: `C130_false`.
* **C132** Nothing unbinds assemblers and exchangers when their domain is destroyed or assigned to, and no assertion forbids it: `~exchanger` and `~assembler` then follow `Domain_`, whose cell was freed with the domain, and so do `Unbind` and `Reset` of the handles. Declaring the exchanger before the domain suffices (`C132_false`, `C132_destroyed`, `C132_overwritten`).
* **C134** `ovkDataTypeToMPI` (src/core/DataType.h:147-162) has no case for `OVK_BOOL` and gives `MPI_DATATYPE_NULL`, although it is a valid data type with a size; the library itself sends booleans as `MPI_UNSIGNED_CHAR` (src/core/DataType.hpp:97-101). Witness: `C134_false`.
* **C135** `CellBounds` in one dimension (src/core/GeometryOps.inl:770-780) declares `box Bounds` without initialiser and writes the first dimension only; the other four entries are indeterminate (src/core/Elem.hpp:87-91). Witness: `C135_false`.
