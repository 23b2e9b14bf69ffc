{"id": "C01", "title": "Multi-dimensional indexing is a bijection", "statement": "For any array or field extents and either layout, converting a tuple inside the extents to a linear index gives a value in [0,Count), converting that index back gives the same tuple, and every index in [0,Count) is reached by exactly one tuple. Two distinct tuples never share storage.", "quantifier": "all ranks, all begin/end bounds (negative begins included), both layouts, all tuples and all indices", "why_tests_cant": "The set of extents is unbounded; a test only samples a few shapes, while an aliasing error appears for one stride pattern.", "anchors": ["src/core/Indexer.hpp: indexer::ToIndex, indexer::ToTuple", "src/core/Array.hpp: array::operator()"]}
{"id": "C02", "title": "Range algebra agrees with sets of points", "statement": "The intersection of two ranges contains exactly the points in both; two ranges overlap iff some point is in both; A includes B iff every point of B is in A; the union range contains both operands and is contained in every range that contains both; the point count is the number of contained points; clamping a point to a non-empty range yields a point of the range and is the identity on its points.", "quantifier": "all pairs of ranges (including empty and inverted ones) and all points, any dimension", "why_tests_cant": "Empty and inverted ranges make a combinatorial number of corner cases per dimension; tests cover a handful of shapes.", "anchors": ["src/core/Interval.hpp", "src/core/Range.inl: IntersectRanges, UnionRanges, RangesOverlap, ExtendRange, ClampToRange"]}
{"id": "C03", "title": "Periodic adjustment gives the canonical representative", "statement": "Adjusting a tuple into a periodic index space changes periodic dimensions by a whole number of periods only, leaves non-periodic dimensions alone, lands every periodic dimension in the first period, is idempotent, and sends two tuples to the same result exactly when they denote the same point of the periodic space.", "quantifier": "all index-space ranges with positive period, both storage conventions, all tuples however many periods away", "why_tests_cant": "Truncating division behaves differently for negative offsets; exhaustive testing over unbounded integers is impossible.", "anchors": ["src/core/Cart.inl: PeriodicAdjust, GetPeriodSize, GetPeriod"]}
{"id": "C04", "title": "Mapping a tuple into a range finds the periodic image", "statement": "Mapping a tuple into a target range returns a tuple of that range denoting the same point of the (possibly periodic) index space, and returns nothing only if no such tuple exists in the range.", "quantifier": "all index spaces, target ranges and tuples", "why_tests_cant": "Correctness depends on the relative position of range, tuple and period in each dimension; only sampled by tests.", "anchors": ["src/core/Cart.inl: MapToRange(range,tuple)"]}
{"id": "C05", "title": "Mapping a range onto a range finds an overlapping periodic image", "statement": "Mapping a range onto a target range returns a translate of the given range by whole periods in the periodic dimensions which overlaps the target, and returns nothing only if no such translate overlaps the target.", "quantifier": "all index spaces, target ranges and source ranges", "why_tests_cant": "Same unbounded space of relative positions; the code searches only two candidate periods.", "anchors": ["src/core/Cart.inl: MapToRange(range,range)"]}
{"id": "C06", "title": "Uniform grid cell lookup is a floor division", "statement": "Looking up the bin of a coordinate on a uniform grid with positive bin size returns the unique bin whose half-open interval contains it, also left of the origin.", "quantifier": "all origins, positive bin sizes and coordinates", "why_tests_cant": "C++ division truncates toward zero; sign-dependent off-by-one errors are easily missed by sampled tests.", "anchors": ["src/core/Math.inl: MapToUniformGridCell"]}
{"id": "C07", "title": "Splitting a local range into subregions is a partition", "statement": "The subregions produced for threaded work are pairwise disjoint and their union is exactly the original range, and the sizes along the split dimension differ by at most one.", "quantifier": "all ranges and all positive subregion counts, including more subregions than points", "why_tests_cant": "Remainder handling depends on divisibility for unboundedly many sizes.", "anchors": ["src/core/Partition.cpp: CreateSubregions"]}
{"id": "C08", "title": "Cell decomposition induced by a point decomposition is exact", "statement": "If the point ranges of all processes tile the point index space, then the derived cell ranges tile the cell index space: every cell is owned by exactly one process, namely the one owning its lower corner.", "quantifier": "all index spaces (periodic or not, in each dimension) and all tilings by boxes", "why_tests_cant": "Number of decompositions is unbounded; the boundary rule depends on periodicity and on which process touches the upper face.", "anchors": ["src/core/Decomp.cpp: CartPointToCell, RangePointToCell", "src/core/Grid.cpp"]}
{"id": "C09", "title": "Extended ranges contain every vertex of every owned cell", "statement": "The extended point range of a process contains its local range and all corners of every cell of its extended cell range; extension never leaves a non-periodic index space.", "quantifier": "all index spaces, local ranges and extension amounts", "why_tests_cant": "Unbounded family of partitions with per-dimension boundary cases.", "anchors": ["src/core/Decomp.cpp: ExtendLocalRange, RangeCellToPointAll", "src/core/Grid.cpp"]}
{"id": "C10", "title": "The sorted set behaves as a mathematical set", "statement": "After any history of insert, erase and conditional-erase operations a set contains exactly the values inserted and not erased since, reports membership correctly, holds no duplicates, and iterates in increasing order.", "quantifier": "all operation histories over all values", "why_tests_cant": "Histories are unbounded; an ordering violation needs a particular interleaving of inserts and erases.", "anchors": ["src/core/Set.hpp: set::Insert, Erase, EraseIf, Find, Contains, LowerBound"]}
{"id": "C11", "title": "The sorted map behaves as a mathematical map", "statement": "After any history of insert, fetch, erase and conditional-erase operations a lookup returns the last value stored under the key, absent keys are reported absent, and entries are visited in increasing key order, each key once.", "quantifier": "all operation histories over all keys and values", "why_tests_cant": "Unbounded histories; key and value storage are separate arrays that must stay aligned.", "anchors": ["src/core/Map.hpp: map::Insert, Fetch, Erase, EraseIf, Find, Contains"]}
{"id": "C12", "title": "Fresh IDs are the smallest unused ones", "statement": "The automatically chosen ID for a new object is non-negative, not in use, and every smaller non-negative integer is in use; hence an ID is never handed out twice while its owner is alive.", "quantifier": "all sets of IDs in use", "why_tests_cant": "Gap search must work for every occupancy pattern.", "anchors": ["src/core/ID.hpp: NextAvailableID", "src/core/Event.inl: AddListener"]}
{"id": "C13", "title": "Union-find answers connectivity", "statement": "After any history of insert and union operations two inserted elements report the same representative iff they are connected by the unions performed so far; an element never inserted reports none.", "quantifier": "all histories of insert, union and find (find performs path compression)", "why_tests_cant": "Path compression, rank decisions and index shifting on insertion make the state history-dependent; histories are unbounded.", "anchors": ["src/core/UnionFind.hpp: union_find::Insert, Find, Union"]}
{"id": "C14", "title": "Relabelling picks the smallest member as representative", "statement": "After relabelling, the representative of every class is its smallest member and the classes are unchanged.", "quantifier": "all histories preceding the relabel", "why_tests_cant": "Depends on which root the preceding unions happened to choose.", "anchors": ["src/core/UnionFind.hpp: union_find::Relabel"]}
{"id": "C15", "title": "Connected component labels are exact and decomposition independent", "statement": "Two grid points receive the same component label iff they can be joined by a chain of neighbouring points all carrying the same mask value, regardless of how the grid is distributed over processes; labels are 0..NumComponents-1.", "quantifier": "all masks, all neighbour structures and all distributions of points over processes", "why_tests_cant": "Components may snake through any number of processes; tests cover a few shapes and process counts.", "anchors": ["src/core/DistributedFieldOps.cpp: ConnectedComponents", "src/core/UnionFind.hpp"]}
{"id": "C16", "title": "Flood fill reaches exactly the region not separated by the barrier", "statement": "After flooding, a point is set iff it was set already or is outside the barrier and joined by a barrier-free chain of neighbours to a seed outside the barrier.", "quantifier": "all masks, barriers and grids", "why_tests_cant": "Reachability is a global property over unboundedly long chains.", "anchors": ["src/core/DistributedFieldOps.cpp: FloodMask"]}
{"id": "C17", "title": "Dilation and erosion are neighbourhood balls", "statement": "Dilating a mask by n sets exactly the points within n neighbour steps of a set point (counting the chosen boundary value outside the grid); eroding by n keeps exactly the points all of whose n-step neighbourhood is set; eroding is dual to dilating the complement.", "quantifier": "all masks, amounts, neighbour relations and boundary conditions", "why_tests_cant": "Amounts and masks are unbounded; iteration of an edge fill must compose to the ball.", "anchors": ["src/core/DistributedFieldOps.cpp: DilateMask, ErodeMask, DetectEdge"]}
{"id": "C18", "title": "Spatial hash lookups never miss a region", "statement": "For any collection of box regions that is not flat in some dimension, looking up the bin of a point returns a list that contains every region containing the point, each region at most once per bin, and the answer 'no bin' is given only for points in no region. (A flat collection makes the bin size zero, which is undefined behaviour; shown separately.)", "quantifier": "all region collections, bin counts and query points", "why_tests_cant": "Bin-boundary coincidences form a measure-zero but reachable set that sampling misses.", "anchors": ["src/core/RegionHash.hpp", "src/core/RegionHash.inl: MapToBin, RetrieveBin", "src/core/HashableRegionTraits.hpp"]}
{"id": "C19", "title": "Distributed spatial hash gives every process the same complete answer", "statement": "Whatever process inserted a region, any process that asks for the bin of a point contained in the region is given that region together with the rank of its owner; the answer does not depend on the asking process.", "quantifier": "all distributions of regions over processes and all query points", "why_tests_cant": "Needs many processes and adversarial region placement.", "anchors": ["src/core/DistributedRegionHash.inl: MapToBin, RetrieveBins", "src/core/DistributedRegionHash.hpp"]}
{"id": "C20", "title": "Halo exchange makes every copy equal to its owner's value", "statement": "After an exchange every point of the extended range of every process (periodic images included) whose owner is the process itself or one of its neighbours holds the value its owner had before the exchange, owned values and memory of points outside the index space are unchanged, no index leaves the field array, every exchange on a symmetric neighbour relation finishes, and the result is the same for every order in which processes call and messages complete.", "quantifier": "all tilings, periodicities, field values and message completion orders", "why_tests_cant": "Completion order is nondeterministic and the number of decompositions unbounded.", "anchors": ["src/core/Halo.cpp: halo_map, halo", "src/core/Halo.inl: Exchange"]}
{"id": "C21", "title": "Sent values arrive at the slot that asked for them", "statement": "For matching send and receive maps every receive slot gets exactly the value of its send slot, independent of the order in which messages complete; slots with no rank assigned are left untouched.", "quantifier": "all maps, rank assignments, component counts and completion orders", "why_tests_cant": "Nondeterministic completion and unbounded maps.", "anchors": ["src/core/SendMap.cpp", "src/core/RecvMap.cpp", "src/core/Send.cpp", "src/core/Recv.cpp"]}
{"id": "C22", "title": "Collect reduces over the whole stencil, wherever its points live", "statement": "A collect operation returns for every cell the reduction (interpolation, min, max, any, all, none, not-all) over all stencil points with the global field values, independent of how the field is distributed.", "quantifier": "all stencils, distributions, field values and both layouts", "why_tests_cant": "Requires every combination of local and remote stencil points.", "anchors": ["src/core/CollectMap.cpp", "src/core/CollectBase.cpp", "src/core/CollectInterp.hpp", "src/core/CollectMin.hpp"]}
{"id": "C23", "title": "Disperse touches exactly the target points", "statement": "Disperse-overwrite sets each mapped point to its received value (the last one if a point is mapped several times) and leaves all other points unchanged; disperse-append adds every received value exactly once.", "quantifier": "all point lists and values", "why_tests_cant": "Unbounded lists with duplicates.", "anchors": ["src/core/DisperseMap.cpp", "src/core/DisperseOverwrite.hpp", "src/core/DisperseAppend.hpp"]}
{"id": "C24", "title": "Source and destination ranks agree after rendezvous", "statement": "After the exchanger has detected ranks, the destination rank stored with every owned donor is the rank that owns the receiver point it targets, and the source rank stored with every receiver is the rank owning the donor that targets it.", "quantifier": "all grids, connectivities, decompositions and linear-partition sizes", "why_tests_cant": "Third-party rendezvous through a linear partition; needs adversarial sizes and process counts.", "anchors": ["src/core/Exchanger.cpp: UpdateSourceDestRanks_"]}
{"id": "C25", "title": "Donor and receiver orders agree", "statement": "After both sides sort by the global index of the receiver point, the k-th value a rank sends to another rank is for the k-th point that rank expects from it, whatever order the user listed donors and receivers in.", "quantifier": "all donor and receiver lists without duplicate receivers", "why_tests_cant": "Order depends on arbitrary user permutations on two processes.", "anchors": ["src/core/Exchanger.cpp: ResetExchanges_, GetSendRecvOrder", "src/core/ArrayOps.hpp: ArrayOrder"]}
{"id": "C26", "title": "Message tags of different exchanges never collide", "statement": "Two exchange operations with different user tags or different connectivities use different message tags, so concurrent exchanges do not mix.", "quantifier": "all user tags and connectivity sets", "why_tests_cant": "Pairs of (tag, connectivity) are unbounded.", "anchors": ["src/core/Exchanger.cpp: CreateSend, CreateReceive"]}
{"id": "C27", "title": "Waiting completes every message exactly once", "statement": "Waiting on one request or on all of a list processes every underlying message exactly once and every request's final step exactly once, after all its messages; waiting on any returns an index of a completed request and loses no progress of the others.", "quantifier": "all request lists (with null requests), message counts and completion orders", "why_tests_cant": "Completion order is chosen by the MPI library.", "anchors": ["src/core/Request.cpp: WaitAll, WaitAny", "src/core/Request.hpp", "src/core/Send.cpp", "src/core/Recv.cpp"]}
{"id": "C28", "title": "Dynamic handshake discovers exactly the sending ranks", "statement": "When the handshake returns on a rank the list it returns is exactly the set of ranks that named it, each once, and the protocol cannot deadlock.", "quantifier": "all numbers of ranks, all who-names-whom relations and all message/barrier interleavings", "why_tests_cant": "The interleaving space of a non-blocking consensus is astronomically large.", "anchors": ["src/core/CommunicationOps.cpp: DynamicHandshake"]}
{"id": "C29", "title": "Edit sessions end exactly once", "statement": "While at least one edit handle is alive the object is being edited; when the last handle goes away the end-of-edit action runs exactly once, however handles were copied, moved, released or restored.", "quantifier": "all histories of handle operations", "why_tests_cant": "Handle histories are unbounded.", "anchors": ["src/core/Editor.hpp", "src/core/Editor.inl: editor, edit_handle"]}
{"id": "C30", "title": "Registered listeners hear each event exactly once", "statement": "Triggering an event calls every currently registered listener exactly once in registration-ID order and no others; listeners added or removed earlier are accounted for.", "quantifier": "all histories of add, remove and trigger", "why_tests_cant": "Registration histories are unbounded and IDs are recycled.", "anchors": ["src/core/Event.hpp", "src/core/Event.inl"]}
{"id": "C31", "title": "Edit notifications are merged consistently across processes", "statement": "When edits are synchronised, every process announces the same connectivities with the same merged edit flags in the same order, exactly the last announcement is marked last, and no edit is announced twice or lost.", "quantifier": "all distributions of local edits over processes", "why_tests_cant": "Requires all combinations of per-process edit flags.", "anchors": ["src/core/ConnectivityComponent.cpp: SyncEdits_"]}
{"id": "C32", "title": "Clearing a component removes everything", "statement": "After clearing all connectivities (or overlaps) none exists any more.", "quantifier": "all sets of existing connectivities", "why_tests_cant": "Works by accident for few elements; fails only from a certain count.", "anchors": ["src/core/ConnectivityComponent.cpp: ClearConnectivities, DestroyConnectivities", "src/core/OverlapComponent.cpp: ClearOverlaps", "src/core/Set.hpp: Erase"]}
{"id": "C33", "title": "No connectivity outlives its grids", "statement": "After any history of creating and destroying grids and connectivities, every existing connectivity refers to two existing grids, and destroying a grid removes exactly the connectivities touching it.", "quantifier": "all histories of grid and connectivity creation/destruction", "why_tests_cant": "Histories are unbounded.", "anchors": ["src/core/ConnectivityComponent.cpp: OnGridEvent_, DestroyConnectivitiesForDyingGrids_", "src/core/Domain.cpp: DestroyGrids"]}
{"id": "C34", "title": "Resizing an array keeps the surviving elements", "statement": "After resizing, every tuple in both the old and the new extents keeps its value; with a fill value every other tuple of the new extents has the fill value.", "quantifier": "all old and new extents (also differing begins), both layouts", "why_tests_cant": "Unbounded shapes.", "anchors": ["src/core/Array.hpp: array::Resize"]}
{"id": "C35", "title": "Small linear systems are solved exactly", "statement": "Whenever the determinant is non-zero the 2x2 and 3x3 column solvers return the unique solution of the system.", "quantifier": "all matrices with non-zero determinant and all right-hand sides (exact arithmetic)", "why_tests_cant": "Continuum of inputs; sign errors in one cofactor cancel on symmetric samples.", "anchors": ["src/core/Math.inl: ColumnSolve2D, ColumnSolve3D, ColumnDeterminant2D, ColumnDeterminant3D"]}
{"id": "C36", "title": "Interpolation coefficients are consistent and exact on polynomials", "statement": "Linear (cubic) interpolation coefficients sum to one, select the node at nodes, and reproduce every polynomial of degree at most one (three); the derivative coefficients reproduce the derivative.", "quantifier": "all local coordinates and all polynomials of that degree (exact arithmetic)", "why_tests_cant": "Continuum of coordinates and polynomials.", "anchors": ["src/core/Math.inl: LagrangeInterpLinear, LagrangeInterpCubic, LagrangeInterpLinearDeriv, LagrangeInterpCubicDeriv"]}
{"id": "C37", "title": "Local coordinates invert the cell map", "statement": "For non-degenerate uniform, oriented-uniform and simplex-like cells, computing local coordinates of the image of local coordinates gives them back and vice versa; an iterative inversion that reports success returns local coordinates whose image is within the tolerance of the query.", "quantifier": "all cells and coordinates (exact arithmetic)", "why_tests_cant": "Continuum of geometry.", "anchors": ["src/core/GeometricPrimitiveOpsLine.inl", "src/core/GeometricPrimitiveOpsQuad.inl", "src/core/GeometricPrimitiveOpsHex.inl"]}
{"id": "C38", "title": "The overlap search tree never discards the containing cell", "statement": "If a query point lies in the (tolerance-scaled) bounding box of some active cell, then the leaf reached for that point contains the cell among its candidates, whatever the tree depth and split positions.", "quantifier": "all cell collections, split choices, depths and query points", "why_tests_cant": "Depends on coincidences between split planes and cell boundaries.", "anchors": ["src/core/OverlapAccel.cpp: CreateNode_, FindCell"]}
{"id": "C39", "title": "The chosen donor cell does not depend on the decomposition", "statement": "Aggregating candidate cells found in different fragments yields the same cell for every order in which fragments are visited: an inside cell if there is one, then the best-centred (or nearest), then the smallest global index.", "quantifier": "all candidate lists and visiting orders", "why_tests_cant": "Orders are factorial in number and tie cases rare.", "anchors": ["src/core/AssemblerAssembly.cpp: DetectOverlap_ (BetterCell)"]}
{"id": "C40", "title": "Grid fragments partition the active cells", "statement": "Fragments created for a process's cells are pairwise disjoint, lie inside its cell range, and contain every active cell.", "quantifier": "all cell ranges, masks and volume data", "why_tests_cant": "Recursive splitting over unbounded ranges.", "anchors": ["src/core/AssemblerAssembly.cpp: subdivide::operator(), Subdivide_"]}
{"id": "C41", "title": "Cell cover ranges contain exactly the cells touching owned corners", "statement": "The cover range of a cell range contains exactly the cells having a vertex that is the lower corner of a cell of the range (taking periodicity into account).", "quantifier": "all index spaces and cell ranges", "why_tests_cant": "Per-dimension boundary and periodicity combinations.", "anchors": ["src/core/AssemblerAssembly.cpp: MakeCellCoverRange"]}
{"id": "C42", "title": "Fragment data arrives in the right fragment", "statement": "During overlap search each received block of fragment coordinates is stored in the buffer of the fragment it belongs to, for every order in which non-blocking operations complete.", "quantifier": "all numbers of fragments and all completion orders", "why_tests_cant": "Needs a particular completion order inside the MPI library.", "anchors": ["src/core/AssemblerAssembly.cpp: DetectOverlap_ (transfer loop)"]}
{"id": "C43", "title": "Re-assembly starts from the user's state", "statement": "Starting a new assembly restores, for every grid point, the active and boundary flags the user set before the previous assembly and clears all flags derived by assembly.", "quantifier": "all flag values, all outcomes of the previous assembly", "why_tests_cant": "All 2^n flag combinations and all decision outcomes.", "anchors": ["src/core/AssemblerAssembly.cpp: InitializeAssembly_, InferBoundaries_, CutBoundaryHoles_, MinimizeOverlap_"]}
{"id": "C44", "title": "Overlap minimization leaves a full fringe of occluded points", "statement": "Every point that becomes inner fringe is occluded, every point removed was active and occluded, and no active non-fringe point lies within the fringe width of a removed point.", "quantifier": "all masks, grids, fringe sizes", "why_tests_cant": "Global geometric property of arbitrary masks.", "anchors": ["src/core/AssemblerAssembly.cpp: MinimizeOverlap_"]}
{"id": "C45", "title": "Donor distance field is the capped signed step distance", "statement": "The distance stored for a point is the number of neighbour steps to the boundary of the receiver region, negative inside it, capped at the configured maximum.", "quantifier": "all receiver masks and maxima", "why_tests_cant": "Unbounded masks and distances.", "anchors": ["src/core/AssemblerAssembly.cpp: GenerateConnectivityData_ (ReceiverDistances)"]}
{"id": "C46", "title": "Every receiver gets exactly one eligible donor grid or is an orphan", "statement": "A receiver point is assigned a donor grid iff some overlapping grid with an enabled connection is eligible for it, the assigned grid is eligible, and the point is flagged orphan exactly when no grid is eligible; every non-orphan receiver appears in exactly one connectivity.", "quantifier": "all overlap data, options and visiting orders of grids", "why_tests_cant": "Combinatorial number of overlap situations.", "anchors": ["src/core/AssemblerAssembly.cpp: GenerateConnectivityData_ (choose donors)"]}
{"id": "C47", "title": "Per-grid options with wildcards behave as a total function", "statement": "After any sequence of option settings and resets (single grid, pair, or all-grids wildcard) reading an option returns the value of the last setting that covers the queried grids, or the default if none does since the grid was added.", "quantifier": "all sequences of settings, grid additions and removals", "why_tests_cant": "Histories are unbounded; defaults are stored implicitly by erasing entries.", "anchors": ["src/core/AssemblerOptions.cpp: SetOption_, GetOption_, RemoveGrids"]}
{"id": "C48", "title": "Formatted numbers are faithful", "statement": "Removing the thousands separators from a formatted number gives back its decimal digits, separators appear exactly before every group of three trailing digits, and the text never starts or ends with a separator.", "quantifier": "all numbers", "why_tests_cant": "Unbounded digit counts.", "anchors": ["src/core/TextProcessing.inl: FormatNumber"]}
{"id": "C49", "title": "The partition pool returns what was asked for", "statement": "Fetching from the partition pool returns a partition with exactly the requested index space, local range, extended range and subregion count, and fetching leaves every partition previously handed out in the pool.", "quantifier": "all sequences of insertions, fetches and removals", "why_tests_cant": "The pool is ordered by a hand-written comparison; lookups must be right for every content.", "anchors": ["src/core/Partition.cpp: partition_pool"]}
{"id": "C50", "title": "Counting a distributed mask counts every point once", "statement": "The count returned on every process is the number of set points of the grid, independent of the decomposition.", "quantifier": "all tilings and masks", "why_tests_cant": "Number of decompositions and masks is unbounded.", "anchors": ["src/core/DistributedFieldOps.cpp: CountDistributedMask"]}
{"id": "C51", "title": "Neighbour detection finds everyone an exchange needs", "statement": "The processes found by neighbour detection are exactly the other processes owning a point adjacent to a local point (periodic images and diagonals included), the relation is symmetric, and the owner of every point of a grid's extended range is the process itself or a detected neighbour.", "quantifier": "all index spaces, periodicities, storage modes and tilings", "why_tests_cant": "Decompositions are unbounded in number and shape; the failing shapes (thin processes, duplicated seam) are not exercised by tests.", "anchors": ["src/core/Decomp.cpp: DetectNeighbors", "src/core/Grid.cpp: grid_base, extended ranges"]}
{"id": "C52", "title": "Profiler timers stop when a wait returns", "statement": "After Wait, WaitAll or WaitAny returns, the profiler's wait timer and MPI timer, if they were off before, are off again.", "quantifier": "all request lists, message counts and completion orders", "why_tests_cant": "Timer bookkeeping is only visible in profile output, which no test checks.", "anchors": ["src/core/Request.cpp: Wait, WaitAll, WaitAny", "src/core/Profiler.cpp: Start_, Stop_"]}
{"id": "C53", "title": "The signal used without MPI_Ibarrier is a barrier", "statement": "Check returns true on a process only after every process has called Start, and once all have started every process can come to see true; no deadlock.", "quantifier": "all numbers of processes and all message interleavings", "why_tests_cant": "Interleavings are unbounded; the fallback is compiled only for MPI libraries without MPI_Ibarrier.", "anchors": ["src/core/CommunicationOps.cpp: signal"]}
{"id": "C54", "title": "Assigning a sequence to an array makes it the content", "statement": "After assigning a range of values (a view or another array) together with extents of the same size, the array has these extents and exactly these values, whatever it held before.", "quantifier": "all arrays, extents and sources", "why_tests_cant": "Only shrinking assignments misbehave, and only by reading behind the end of the source or by a later Append.", "anchors": ["src/core/Array.hpp: array_base_1::Assign(Extents, First)"]}
{"id": "C55", "title": "A one-dimensional array is a sequence with a first index", "statement": "After any history of appending, inserting, erasing, clearing, filling and resizing, a one-dimensional array has the contents and extents of the sequence treated in the same way.", "quantifier": "all histories of calls within their preconditions", "why_tests_cant": "Histories are unbounded.", "anchors": ["src/core/Array.hpp: Append, Insert, Erase, Clear, Assign, Resize"]}
{"id": "C56", "title": "Local coordinates returned for a grid cell are usable", "statement": "When a point's local coordinates in a grid cell are requested and a value is returned, mapping it forward through the interpolation nodes gives the point up to the tolerance; the nodes read lie inside the field; and for affine grids and any field large enough a value is returned and is the exact one.", "quantifier": "all fields, cells, points; one, two and three dimensions (exact arithmetic)", "why_tests_cant": "Continuum of geometry; the one-dimensional branch is not exercised.", "anchors": ["src/core/GeometryOps.inl: CoordsInCell"]}
{"id": "C57", "title": "The overlap test accepts exactly the points of the cell", "statement": "With tolerance zero a cell's overlap test accepts a point exactly if it lies in the cell (for curvilinear cells: in one of the simplices of the subdivision); enlarging the tolerance never rejects an accepted point.", "quantifier": "all cells, points and tolerances (exact arithmetic, with infinities and NaN of divisions by zero)", "why_tests_cant": "Continuum of geometry; degenerate cells occur at poles and axes of real grids but not in tests.", "anchors": ["src/core/GeometryOps.inl: OverlapsCell", "src/core/GeometricPrimitiveOpsQuad.inl: OverlapsQuadNonUniform", "src/core/GeometricPrimitiveOpsHex.inl: OverlapsHexNonUniform"]}
{"id": "C58", "title": "Cell volumes do not depend on the declared geometry type", "statement": "The volume of a cell is non-negative and the volume formulas for uniform, oriented and curvilinear cells agree on the cells they have in common (parallelepipeds, boxes), where they give the determinant of the edges.", "quantifier": "all cells (exact arithmetic)", "why_tests_cant": "Continuum of geometry.", "anchors": ["src/core/GeometryOps.inl: CellVolume", "src/core/GeometricPrimitiveOpsQuad.inl: VolumeQuad*", "src/core/GeometricPrimitiveOpsHex.inl: VolumeHex*"]}
{"id": "C59", "title": "Cell bounds contain the cell", "statement": "The bounds of a cell contain all its corners, are the smallest such box, and contain every point accepted by the cell's overlap test.", "quantifier": "all cells and points (exact arithmetic)", "why_tests_cant": "Continuum of geometry; a lost point shows up as a missing donor far away from the cause.", "anchors": ["src/core/GeometryOps.inl: CellBounds", "src/core/Box.inl: ExtendBox"]}
{"id": "C60", "title": "Halo coordinates are shifted by whole periodic lengths", "statement": "When an edit of the coordinates ends, every point of every process's extended range (periodic images included) has the coordinates of the point it is an image of plus the number of periods crossed times the periodic length; this stays true when the periodic length is set.", "quantifier": "all decompositions, periodicities, storage modes, coordinates and message orders", "why_tests_cant": "Number of decompositions and completion orders is unbounded.", "anchors": ["src/core/Geometry.cpp: OnCoordsEndEdit_, SetPeriodicLength"]}
{"id": "C61", "title": "Volumes do not depend on the decomposition", "statement": "After an edit of the coordinates every cell of every extended cell range has the volume of the cell with its coordinates, and every point of every extended range has the mean volume of the existing cells around the point it is an image of.", "quantifier": "all decompositions, periodicities, storage modes, coordinates, translation-invariant volume formulas and message orders", "why_tests_cant": "Number of decompositions is unbounded; an off-by-one at a process boundary only changes an average.", "anchors": ["src/core/Geometry.cpp: OnCoordsEndEdit_, compute_cell_volumes", "src/core/Grid.cpp"]}
{"id": "C62", "title": "Every point a cell accepts lies in the box it is searched by", "statement": "If the overlap test of a cell accepts a point with a tolerance not above the accelerator's maximum tolerance, the point lies in the scaled box under which the accelerator filed the cell.", "quantifier": "all cells, points and tolerances (exact arithmetic)", "why_tests_cant": "Continuum of geometry; the missed points form a thin sliver near corners of cells that random tests do not reach.", "anchors": ["src/core/OverlapAccel.cpp: overlap_accel (cell bounds)", "src/core/Box.inl: ScaleBox", "src/core/GeometricPrimitiveOps.inl", "src/core/GeometryOps.inl: OverlapsCell"]}
{"id": "C63", "title": "Donor points of disjoint connections are not receivers", "statement": "When connections from one grid to another are configured as disjoint, no corner of a donor cell is itself a receiver point.", "quantifier": "all grids, options, search results and flags", "why_tests_cant": "Depends on receiver regions of any depth; small test cases have thin fringes.", "anchors": ["src/core/AssemblerAssembly.cpp: GenerateConnectivityData_"]}
{"id": "C64", "title": "StringReplace replaces every occurrence, left to right, and returns", "statement": "For every text and every substring, StringReplace returns the text in which the leftmost occurrence of the substring is replaced and the part after it is treated in the same way; the inserted text is never searched again.", "quantifier": "all strings Text, Substring and Replacement", "why_tests_cant": "Tests use a handful of strings; overlapping occurrences, replacements that contain the substring and the empty substring are a matter of the loop's position arithmetic and termination.", "anchors": ["src/core/TextProcessing.cpp: StringReplace"]}
{"id": "C65", "title": "Fetching the same partition again returns the same object", "statement": "After any sequence of calls on a partition pool, fetching a partition, fetching partitions of any other index spaces, and then fetching the first one again returns the partition of the first call.", "quantifier": "all histories of Insert, Fetch and Erase, all index spaces, local and extended ranges and subregion counts on any number of processes", "why_tests_cant": "Tests fetch partitions of one or two index spaces per grid; whether the comparison of index spaces is an order consistent with the binary search of the map depends on which index spaces are in the pool together.", "anchors": ["src/core/Partition.cpp: partition_pool::Fetch, CartLess_", "src/core/Map.hpp: map::Fetch"]}
{"id": "C66", "title": "The receivers are the active fringe points and the active occluded points", "statement": "After assembly a point of a grid has the RECEIVER flag if and only if it is active and has the OUTER_FRINGE, the INNER_FRINGE or the OCCLUDED flag; orphans and the points listed in a connectivity are active.", "quantifier": "all grids, decompositions, options, search results, volumes and initial flags for which assembly completes", "why_tests_cant": "The receiver mask is assembled from masks of three earlier stages, some of which are restricted or regenerated only when a count is positive; tests look at a few grid systems.", "anchors": ["src/core/AssemblerAssembly.cpp: GenerateConnectivityData_, LocateOuterFringe_, MinimizeOverlap_"]}
{"id": "C67", "title": "The fringe consists of the outer and the inner fringe", "statement": "After assembly a point of a grid has the FRINGE flag if and only if it has the OUTER_FRINGE or the INNER_FRINGE flag.", "quantifier": "all grids, decompositions, options, search results, volumes and initial flags for which assembly completes", "why_tests_cant": "Two stages set the flags together and a third clears some of them; whether they stay consistent depends on which points overlap minimization removes.", "anchors": ["src/core/AssemblerAssembly.cpp: LocateOuterFringe_, MinimizeOverlap_"]}
{"id": "C68", "title": "COARSE occlusion spares the points that are not coarser", "statement": "If no grid occludes all points of a grid, and at a point the cell volume is not larger than the volume of the overlapping cells of the grids that occlude coarser points, then assembly does not flag the point as OCCLUDED.", "quantifier": "all grids, decompositions, options, search results, volumes and initial flags for which assembly completes", "why_tests_cant": "The pairwise masks are changed by two further passes over pairs of grids that occlude each other and by padding and smoothing; tests compare a few pairs of grids with a uniform ratio of volumes.", "anchors": ["src/core/AssemblerAssembly.cpp: DetectOccluded_"]}
{"id": "C69", "title": "Characterization of occlusion with edge padding", "statement": "Without edge smoothing, and if a grid does not occlude the grids occluding it, a point of it is flagged OCCLUDED if and only if it was active at the start and a cell of an occluding grid was found for it whose vertices are active after hole cutting, which is finer if only coarser points are occluded, and none of whose vertices is within the edge padding of a point of the outer fringe of its grid. With edge smoothing of any width, it is flagged if and only if it meets these conditions except for the padding, and every point within the width of it is within the width of a point meeting all of them. For grids occluding each other the padding still applies, also to points that are not active.", "quantifier": "all grids, decompositions, options, search results, volumes and initial flags for which assembly completes", "why_tests_cant": "The result is the outcome of collect, dilate and reduction steps on masks of two grids; tests look at a few configurations and paddings.", "anchors": ["src/core/AssemblerAssembly.cpp: DetectOccluded_"]}
{"id": "C70", "title": "Assembly completes", "statement": "For every domain whose grids are decomposed into nonempty ranges and every result of the search that consists of cells of the grids, assembly returns: its loops end and it reads no mask that does not exist.", "quantifier": "all grids, decompositions, options, search results, volumes and initial flags", "why_tests_cant": "Whether the loop of the boundary projection ends and whether masks of a pair of grids exist depends on which pairs overlap in which direction; tests use grids that overlap each other.", "anchors": ["src/core/AssemblerAssembly.cpp: Assemble, CutBoundaryHoles_, DetectOccluded_"]}
{"id": "C71", "title": "Every record of an XINTOUT file is read by exactly one process, and reading never fails for its division", "statement": "For every number of donors (or receivers) of a grid whose arrays fit an MPI read, every number of processes, every average number of points per process and every readGranularityAdjust, the division of the records into chunks terminates, no chunk is rejected as too big, and every record is read by exactly one process.", "quantifier": "all record counts, process counts, target sizes and adjustments", "why_tests_cant": "tests use a handful of counts which divide evenly or are large compared to the number of processes", "anchors": ["src/extras/XINTOUT.cpp:960-1050", "src/extras/XINTOUT.cpp:1300-1370", "src/extras/XINTOUT.cpp:2687-2724"]}
{"id": "C72", "title": "Matching of donors and receivers finds the partner of every record", "statement": "For every XINTOUT file in which the donors have connection ids 0..N-1 once each and so have the receivers (N at most the total number of points), and however the records are distributed over the processes, matchDonorsAndReceivers accesses no bin outside its range, sends nothing to a process that does not exist, and gives every donor the grid and point of the receiver with its connection id and every receiver the grid and cell of the donor with its connection id.", "quantifier": "all numbers of processes, files and distributions of records over processes", "why_tests_cant": "depends on bin boundaries relative to the number of processes and on the order of records", "anchors": ["src/extras/XINTOUT.cpp:1491-1891"]}
{"id": "C73", "title": "Importing XINTOUT files gives every process the connections of its points", "statement": "For every domain whose grids' points are divided among their processes, and every pair of XINTOUT files whose donors and receivers each use the connection ids 1..N once, whose donor cells leave their grid only across periodic boundaries and whose receivers lie on their grid (and for which no chunk is rejected, see C71): ImportXINTOUT completes without undefined behaviour; a connectivity from grid m to grid k is created just when some donor of m and receiver of k share a connection id; every process of m gets, in the order of the file, exactly the donors having a point among its local points (wrapped into the first period where the cell crosses a periodic boundary), with the receiver of the connection as destination; and every process of k gets, in the order of the file, exactly the receivers among its local points, with the lower corner of the donor cell as source. Both sides agree.", "quantifier": "all domains, decompositions, communicators, file contents, read granularities and hash parameters", "why_tests_cant": "the result depends on the division of the records over readers, of connection ids over bins, and of points over processes, none of which a test varies independently", "anchors": ["src/extras/XINTOUT.cpp:222-295", "src/extras/XINTOUT.cpp:1893-2650"]}
{"id": "C74", "title": "The donor of a receiver is the best of the eligible donors", "statement": "For all domains, option settings (edge padding below 999999) and states for which assembly is defined: whenever a point is given a donor grid, no other eligible donor grid's cell lies farther from the receivers of its own grid, measured as a fraction of one plus the edge padding of the pair and counted as one beyond that. Among the eligible donors equally far, the chosen one has the smallest interpolated cell volume if all grids occlude each other where finer, the lowest grid number if all grids occlude each other everywhere, and the highest grid number if no grid occludes another.", "quantifier": "all dimensions, numbers of grids, layouts, options, flags and overlap data", "why_tests_cant": "a choice between three or more candidates with ties depends on combinations of distances, volumes and occlusion settings that no finite set of cases covers", "anchors": ["src/core/AssemblerAssembly.cpp:4466-4549", "src/core/AssemblerAssembly.cpp:4360-4460"]}
{"id": "C75", "title": "An exchange gives every receiver the value interpolated from its donor cell", "statement": "For all consistent connectivities, partitions, fields and executions: after collecting with INTERPOLATE on the donor grid, sending and receiving in any order the network allows, and dispersing with OVERWRITE (or APPEND) on the receiver grid, every receiver point holds (or has been increased by) the sum over all vertices of its donor's cell of the product of the interpolation coefficients times the value of the donor grid's field at the vertex; it has exactly one such donor; all other points are unchanged; no execution gets stuck or runs forever, and collecting and dispersing are defined on every process.", "quantifier": "all dimensions, numbers of processes, partitions, periodic domains, cell sizes, coefficients, component counts and interleavings", "why_tests_cant": "cells may straddle processes and periodic boundaries, donors and receivers are listed in any order on any process and messages arrive in any order", "anchors": ["src/core/Exchanger.cpp:779-813", "src/core/Exchanger.cpp:990-1030", "src/core/Exchanger.cpp:1158-1200", "src/core/Exchanger.cpp:1320-1360", "src/core/Exchanger.cpp:1497-1535"]}
{"id": "C76", "title": "The process grid uses every process exactly once and is no worse than what MPI proposed", "statement": "For all numbers of processes, dimensions and given sizes, and whatever MPI_Dims_create is allowed to return: the dimensions computed for a Cartesian communicator are defined, their product is the number of processes, dimensions given by the caller are kept, the others are in non-increasing order, and the smallest sum of squared deviations from an integer is not larger than for the dimensions MPI proposed.", "quantifier": "all numbers of processes, up to three dimensions, all given sizes and all results MPI_Dims_create may return", "why_tests_cant": "the result of MPI_Dims_create depends on the MPI library, and large numbers of processes cannot be tried in tests", "anchors": ["src/core/Comm.cpp:43-137"]}
{"id": "C77", "title": "After synchronizing errors all processes have the same error", "statement": "For all numbers of processes and all errors captured by them: synchronizing a captured error over a communicator completes, and afterwards either no process has an error (and none had one), or all processes have the same error, with the same file path, namely one that some process had.", "quantifier": "all numbers of processes and all combinations of captured errors", "why_tests_cant": "errors of several kinds on several processes at once are hard to provoke", "anchors": ["src/core/Exception.hpp:126-155", "src/core/Error.hpp:71-160"]}
{"id": "C78", "title": "Broadcasting from an unknown source gives every process the value of the source", "statement": "For all numbers of processes, all sequences of BroadcastAnySource calls on one communicator in which each call has exactly one process that says it is the source, all values and all timings (sends buffered or not, messages received in any order): the calls complete on all processes, and each process has, after each call, the value the source of that call had.", "quantifier": "all numbers of processes, sequences of calls, values, and interleavings of the processes", "why_tests_cant": "a message taken by the wrong call depends on timing: a process may be several calls ahead of another", "anchors": ["src/core/CommunicationOps.cpp:37-49"]}
{"id": "C79", "title": "Floating references follow objects when they are moved", "statement": "For all histories of constructing, copying, moving, assigning and destroying objects: every operation on existing objects is defined, and a floating reference obtained from an object denotes its place in that object as long as the object exists, or in the object its contents were moved to.", "quantifier": "all histories of constructions, copies, moves, assignments and destructions, any number of objects and references", "why_tests_cant": "dangling references depend on which of several moved objects a reference was obtained from and on what is in freed memory", "anchors": ["src/core/FloatingRef.inl:6-49", "src/core/FloatingRef.inl:79-95"]}
{"id": "C80", "title": "Which points become inferred domain boundary points", "statement": "After assembly, a point carries the inferred-boundary flag iff boundaries are inferred on its grid, it was active and not flagged as domain boundary, some neighbouring position is inactive or outside the grid, and the search found no cell of any grid for it; the domain boundary is the given boundary together with these points.", "quantifier": "all numbers of grids and dimensions, shapes, periodicities, decompositions, activity and boundary flags, options and search results", "why_tests_cant": "the answer depends on neighbours held by other processes and on all other grids; tests check a few geometries", "anchors": ["src/core/AssemblerAssembly.cpp:2694-2791"]}
{"id": "C81", "title": "Which points are cut as boundary holes", "statement": "After assembly, a point is flagged as a boundary hole iff its grid has interior seeds, the point was active, is not connected to a seed without crossing the grid's own or a projected boundary, and is either on no boundary, or an own boundary point at the edge of the grid that no interior point touches. The projected boundary of a cutting grid consists of the overlapped points next to points that are not overlapped and lie within the gap (the least number of steps that joins the two edges of the overlap) of the cells containing boundary points of the cutting grid. In particular a grid is not cut by grids none of whose boundary points lie in it.", "quantifier": "all numbers of grids and dimensions, shapes, periodicities, decompositions, boundary flags, options and search results", "why_tests_cant": "the result of projection, the loop that closes the gap, and distributed flood fill together, on arbitrary geometry", "anchors": ["src/core/AssemblerAssembly.cpp:2793-3401"]}
{"id": "C82", "title": "Which points form the outer fringe", "statement": "After assembly, the outer fringe consists exactly of the active points that were not cut as a hole and are within the fringe size, in every dimension and up to periodicity, of a position that is no such point (cut, inactive or outside the grid) but next to one that is on neither a domain nor an internal boundary; the flag is lost only by points removed later.", "quantifier": "all shapes, periodicities, decompositions, boundary flags, fringe sizes, options and search results", "why_tests_cant": "involves positions outside the grid and corners where boundary and other edges meet, across process boundaries", "anchors": ["src/core/AssemblerAssembly.cpp:3403-3520"]}
{"id": "C83", "title": "Destroying a component unbinds what is bound to it", "statement": "After every history of creating, editing and destroying components of a domain and of binding and unbinding exchangers and assemblers, an exchanger or assembler is bound iff it was bound and none of its components has been destroyed since; destroying a component completes without touching anything that no longer exists.", "quantifier": "all histories of create, edit, destroy, bind and unbind, any number of components, exchangers and assemblers, all orders of registration", "why_tests_cant": "The listeners remove themselves from the list that is being traversed; whether this goes wrong depends on the order of registration and on recycled listener IDs, and a test with one exchanger passes.", "anchors": ["src/core/Event.inl:17-24", "src/core/Exchanger.cpp:101-191", "src/core/Assembler.cpp:83-199", "src/core/Assembler.cpp:325-346", "src/core/Domain.cpp:388-403"]}
{"id": "C84", "title": "An exchanger follows the edits of its connectivities", "statement": "After every history of creating, editing and destroying connectivities of the component an exchanger is bound to, with matching donors and receivers after each step, the exchanger holds for every donor whose lower corner is on the process the rank of the receiver's process, no rank for the other donors, for every receiver the rank of the process with the lower corner of its donor cell, and nothing for connectivities that do not exist.", "quantifier": "all histories of create, edit and destroy, numbers of processes and connectivities, donors, receivers and edit flags that tell what was changed", "why_tests_cant": "Only the connectivities named by an event are recomputed, from flags merged over all processes; which edits must trigger a recomputation only shows for particular combinations of edits.", "anchors": ["src/core/Exchanger.cpp:101-143", "src/core/Exchanger.cpp:193-280", "src/core/Exchanger.cpp:282-777", "src/core/ConnectivityComponent.cpp:127-203"]}
{"id": "C85", "title": "The two sides of detected overlap agree", "statement": "After overlap detection, for every pair of grids and every pair of processes (r, s), the entries the M side on r lists for s and the entries the N side on s lists for r are the same (cell, point) pairs in the same order; every point on the N side is an active local point and its source is a cell owned by the named process that accepts the point; each M side lists every destination once, in index order, and has a destination rank exactly for the cells its process owns.", "quantifier": "all numbers of processes and grids, decompositions, periodic and duplicated index spaces, active masks, coordinates, orientations, tolerances, hash and search tree parameters, and orders left by std::sort", "why_tests_cant": "The two sides are computed on different processes from different copies of the data, filtered, mapped to periodic images and sorted by different keys; send and receive buffers later pair up by position only.", "anchors": ["src/core/AssemblerAssembly.cpp:689-2514", "src/core/Assembler.hpp:71-350"]}
{"id": "C86", "title": "Overlap detection finds exactly the points in active cells, with their best cells", "statement": "For any number of processes and any decomposition, overlap detection is defined on every process, and for every pair of overlappable grids the points on the N side are exactly the active points that some active cell of the M grid accepts within the tolerance, each with the accepting cell that is preferred to all others; grids that are not overlappable have no overlap.", "quantifier": "all numbers of processes and grids, decompositions, subdivisions into fragments, orthogonal orientations, hash and search tree parameters, active masks in which every active point is a vertex of an active cell, multilinear cells, tolerances", "why_tests_cant": "A point is missed only if one of many pruning steps (fragment boxes, hash bins, requested fragments, search tree, bins in it) drops its cell; the result must not depend on the decomposition.", "anchors": ["src/core/AssemblerAssembly.cpp:368-1832", "src/core/Assembler.hpp:71-350", "src/core/OverlapAccel.cpp", "src/core/DistributedRegionHash.inl"]}
{"id": "C87", "title": "Overlap detection is defined for every active mask", "statement": "Overlap detection reads no entry of the fragment hash, the search trees or its work arrays that does not exist and no value that was never written, on any process, whatever points are active.", "quantifier": "all numbers of processes and grids, decompositions, active masks, multilinear cells, tolerances, hash and search tree parameters", "why_tests_cant": "Needs an active mask and a decomposition for which a process of the hash stores no fragment but is asked for one.", "anchors": ["src/core/AssemblerAssembly.cpp:689-2514", "src/core/DistributedRegionHash.inl:334-590"]}
{"id": "C88", "title": "The interpolation of cell volumes that ends overlap detection completes and uses all vertices", "statement": "The collect operation on the cells listed on the M side of overlap is defined on every process (every message that is waited for is sent), and for every listed cell it reduces over all vertices of the cell, with the global field values, whichever processes hold them.", "quantifier": "all numbers of processes and grids, decompositions, active masks, periodicities, storages, tolerances, fields, reductions", "why_tests_cant": "A process waits forever only if a cell has a vertex on a process that did not list it; this depends on the decomposition, the mask and the position of the other grid at once.", "anchors": ["src/core/AssemblerAssembly.cpp:896-906", "src/core/AssemblerAssembly.cpp:1843-2003", "src/core/AssemblerAssembly.cpp:2184-2290", "src/core/AssemblerAssembly.cpp:2494-2514", "src/core/AssemblerAssembly.cpp:2596-2672", "src/core/CollectMap.cpp:38-345", "src/core/Geometry.cpp:205-226"]}
{"id": "C89", "title": "Overlap detection delivers interpolated values to the overlapping points", "statement": "Values of a field on the M grid that overlap detection interpolates and sends to the processes of the N grid arrive: the maps match, no execution gets stuck or goes on forever, and in the end every overlapping point has the multilinear interpolant of the global field in its source cell, at local coordinates that the cell accepted. Interpolating the coordinates of the M grid reproduces the coordinates of the point.", "quantifier": "all numbers of processes and grids, decompositions, active masks, periodicities, tolerances, fields, interleavings of messages", "why_tests_cant": "The value at one point depends on the hash, the list order on two processes, the collect operation and the matching of messages at once; a slip in any order gives another point's value.", "anchors": ["src/core/AssemblerAssembly.cpp:1843-2003", "src/core/AssemblerAssembly.cpp:2184-2290", "src/core/AssemblerAssembly.cpp:2494-2520", "src/core/AssemblerAssembly.cpp:2596-2672", "src/core/CollectInterp.hpp:67-103", "src/core/SendMap.cpp", "src/core/RecvMap.cpp", "src/core/Send.hpp", "src/core/Recv.hpp"]}
{"id": "C90", "title": "Filling connectivities lists every chosen donor where it is needed", "statement": "When a receiving point has chosen a donor grid, the processes of the donor grid learn it by the reverse exchange over the overlap (which completes), and filling gives: one connectivity per pair of grids with a chosen donor; its receivers are the local points that chose the grid, in order, with the source cell overlap found; its donors are cells that are periodic images of the source cells of receivers, with a vertex on the process and coordinates in the cell; every process with a vertex of the source cell has the donor, and exactly one process owns it.", "quantifier": "all numbers of processes and grids, decompositions, periodicities, tolerances, choices of donors, interleavings of messages", "why_tests_cant": "A donor cell at the corner of four processes must be listed by each of them and be owned by one; tests have few processes and check only the receivers.", "anchors": ["src/core/AssemblerAssembly.cpp:4626-5240"]}
{"id": "C91", "title": "Exchanging over the connectivities filled by assembly transfers values of the donor grid", "statement": "After assembly has filled the connectivities, the exchanger finds destination and source ranks, its maps can be built and match, collecting is defined, no execution of an exchange gets stuck or goes on forever, and in the end every point that chose the donor grid holds, in each component, the value of the donor grid's field at the point: the multilinear interpolant in the cell that overlap detection found, or the value of the nearest vertex. All other points are unchanged.", "quantifier": "all numbers of processes and grids, decompositions, periodicities, tolerances, choices of donors, fields, layouts, interleavings of messages", "why_tests_cant": "This is the purpose of the library; it holds only if hashes, overlap lists, donor lists, rank updates, collect, maps, messages and disperse agree for every decomposition.", "anchors": ["src/core/AssemblerAssembly.cpp:4626-5240", "src/core/Exchanger.cpp:410-813", "src/core/Exchanger.cpp:900-1500", "src/core/CollectInterp.hpp:67-103", "src/core/DisperseOverwrite.hpp"]}
{"id": "C92", "title": "During assembly messages meet the receives meant for them and no process waits forever", "statement": "Assembly runs twelve exchanges over the pairs of overlapping or connected grids, all with tag 0, with halo exchanges, collects and collective operations between and inside them, and each process takes part only for the grids it holds. In every interleaving: while some process has not finished, some process can go on; executions are finite; the k-th receive from a process on a communicator gets the message of the same exchange, pair and number; in the end no message is left over. It is enough that the two sides of each overlap name each other, which overlap detection guarantees.", "quantifier": "all numbers of processes and grids, distributions of grids over processes, sets of overlaps and connectivities, options, interleavings", "why_tests_cant": "A wrong order of two loops or a filter that differs between the sides shows only for some distributions of grids over processes, and then as a hang or as data of another pair.", "anchors": ["src/core/AssemblerAssembly.cpp:2645-2672", "src/core/AssemblerAssembly.cpp:2889-2926", "src/core/AssemblerAssembly.cpp:3022-3055", "src/core/AssemblerAssembly.cpp:3352-3377", "src/core/AssemblerAssembly.cpp:3645-3720", "src/core/AssemblerAssembly.cpp:3801-3825", "src/core/AssemblerAssembly.cpp:4190-4216", "src/core/AssemblerAssembly.cpp:4422-4448", "src/core/AssemblerAssembly.cpp:4675-4711", "src/core/AssemblerAssembly.cpp:4863-4990"]}
{"id": "C93", "title": "Reading XINTOUT files gives the donors and receivers in them", "statement": "From a pair of XINTOUT files of either format (standard or extended), in either byte order, with or without IBlank data, on machines of either byte order, `ReadXINTOUT` finds the byte order, format and presence of IBlank data, and for each grid every process that reads gets exactly its part of the donors (zero-based extents, coordinates, interpolation coefficients, connection IDs) and receivers (zero-based points, connection IDs). Files for another number of grids or with another size of a grid are refused.", "quantifier": "all numbers of grids, donors, receivers, donor sizes, values that fit in the format, divisions among processes, formats, byte orders of file and machine", "why_tests_cant": "Tests read four files with two grids and donors of size 1, all in one byte order and without IBlank data; offsets that are wrong for other donor sizes, other grids, or other byte orders do not show.", "anchors": ["src/extras/XINTOUT.cpp:399-458", "src/extras/XINTOUT.cpp:460-641", "src/extras/XINTOUT.cpp:643-676", "src/extras/XINTOUT.cpp:678-967", "src/extras/XINTOUT.cpp:969-1292", "src/extras/XINTOUT.cpp:1294-1490", "src/extras/XINTOUT.cpp:2726-2791"]}
{"id": "C94", "title": "The result of assembly does not depend on the decomposition", "statement": "Take the same grids, coordinates, flags and options on any two numbers of processes with any two decompositions of the grids. The search for overlapping cells finds the same cell for every point, and assembly is undefined on both or gives the same flags, overlap masks, receivers, orphans, donor grids and connectivities at every point of every grid.", "quantifier": "all grids, numbers of processes, decompositions, flags, options, fragments and search parameters", "why_tests_cant": "Tests run each case on one decomposition; ties between cells on the border of two processes, distances that cross a border or holes filled from another process can depend on where the borders are.", "anchors": ["src/core/AssemblerAssembly.cpp:82-115", "src/core/AssemblerAssembly.cpp:1738-1832", "src/core/AssemblerAssembly.cpp:2694-5240", "src/core/DistributedFieldOps.cpp:18-560"]}
{"id": "C95", "title": "Geometries and states follow their grids, and listeners hear of exactly those that exist", "statement": "After any sequence of creating and destroying grids, creating, destroying, clearing and editing geometries (states): all processes have the same geometries and have announced the same events in the same order; every geometry belongs to an existing grid and is local exactly where the grid is; destroying grids destroys exactly their geometries and works whether or not they have one; from the events a listener can tell exactly which geometries exist, and is never told of the creation of what exists or of the edit or destruction of what does not; edits pending anywhere are announced once before the next change; exactly the last event of each batch is marked last.", "quantifier": "all numbers of processes, distributions of grids, sequences of calls, with and without debug assertions", "why_tests_cant": "Tests create a geometry and a state for every grid and destroy everything at once, so a grid without one is never destroyed.", "anchors": ["src/core/GeometryComponent.cpp:76-99", "src/core/GeometryComponent.cpp:113-173", "src/core/GeometryComponent.cpp:236-317", "src/core/GeometryComponent.cpp:366-500", "src/core/GeometryComponent.cpp:607-618", "src/core/StateComponent.cpp:73-500", "src/core/Domain.cpp:130-306"]}
{"id": "C96", "title": "An application that assembles its grids and exchanges fields gets interpolated values at exactly the receivers", "statement": "Take grids with unique periodic storage on which the search is complete (C86), any flags and any options, on any number of processes. If assembly completes, the donor choice reaches the donor processes, a connectivity is filled for exactly the pairs of grids with a donor, and exchanging a field over each of them completes and leaves: at each receiver that is not an orphan the interpolant (or nearest value) of the field of exactly one donor grid, in the cell of that grid preferred to all others that accept the point; at all other points what was there. Linear fields are reproduced exactly by linear connections. On other decompositions assembly completes as well and every point gets the same value.", "quantifier": "all numbers of processes and grids, decompositions, coordinates, flags, options, tolerances, fields, layouts of fields, interleavings of messages", "why_tests_cant": "This is what users of the library rely on; it composes the search, hole cutting, the choice of donors, filling, ranks, maps, messages and interpolation, each of which is only tested alone or on few processes.", "anchors": ["src/core/AssemblerAssembly.cpp:82-115", "src/core/AssemblerAssembly.cpp:368-5240", "src/core/Exchanger.cpp:410-813", "src/core/Exchanger.cpp:900-1500", "src/core/CollectInterp.hpp:67-103", "src/core/DisperseOverwrite.hpp"]}
{"id": "C97", "title": "Errors while reading XINTOUT files end reading on all processes", "statement": "ReadXINTOUT ends on every process of the domain, in every order in which collective operations can complete, and throws on all of them if and only if some process has found an error: in the global header, in the header of a grid, when opening a file, or when reading part of the donors or receivers of a grid.", "quantifier": "every number of processes, every assignment of grids and of chunks to processes, every combination of errors found by the processes, every execution", "why_tests_cant": "Errors in files, let alone on some processes only, do not occur in tests; whether processes wait for each other forever depends on which grids share processes and on which grid has the error.", "anchors": ["src/extras/XINTOUT.cpp:399-458", "src/extras/XINTOUT.cpp:969-1292", "src/extras/XINTOUT.cpp:1294-1490", "src/core/Exception.hpp:126-160"]}
{"id": "C98", "title": "Interpolation with threads gives the same values as without", "statement": "When interpolation uses OpenMP threads, no two threads use a memory location one of them writes, nothing undefined happens, every execution ends, and the value of each cell is then the sum over its vertices of coefficient times field value, regardless of the number of threads when the object was created and when it is used.", "quantifier": "every number of threads, every distribution of iterations over threads, every interleaving of the memory accesses of the threads, every grid, decomposition, field and set of cells", "why_tests_cant": "Tests run a few schedules with one number of threads; data races and out-of-bounds scratch arrays show up only with particular schedules and when the number of threads changes between creation and use.", "anchors": ["src/core/CollectInterpThreaded.hpp:48-72", "src/core/CollectInterpThreaded.hpp:80-152", "src/core/CollectBase.cpp:242-278"]}
{"id": "C99", "title": "Optional values keep what they are given and destroy it once", "statement": "Every sequence of constructions, copies, moves, assignments, resets and releases of optionals leaves each of them with the value it was last given or with none, destroys every value object that it creates exactly once, never uses one that does not exist, and leaves an optional unchanged when making its new value throws.", "quantifier": "every value type, every number of optionals, every sequence of calls on them, every choice of the constructor calls that throw, including assignment of an optional to itself", "why_tests_cant": "Tests use int or types without resources, for which values never destroyed or destroyed twice are not observable; self-moves and exceptions are not tested.", "anchors": ["src/core/Optional.inl:6-42", "src/core/Optional.inl:44-82", "src/core/Optional.inl:96-144", "src/core/Optional.inl:182-228"]}
{"id": "C100", "title": "Each MPI resource owned by a handle is freed exactly once", "statement": "Every resource put into a handle (communicator, datatype, request, file, ...) is at every moment owned by exactly one handle, or was given back by Release, or was freed once; handles never use a resource that they do not own, and when all handles are gone nothing that was not given back is left unfreed.", "quantifier": "every number of handles, every sequence of constructions, moves, assignments, resets, releases and destructions of handles", "why_tests_cant": "A leaked communicator or datatype has no visible effect until MPI runs out of them; tests do not count resources.", "anchors": ["src/core/Handle.hpp:22-51", "src/core/Handle.inl:7-23", "src/core/Handle.inl:53-69"]}
{"id": "C101", "title": "The tables of overlap and connectivity hold what was written, and the mask marks the points listed", "statement": "After any resizes and edits, each array of an overlap or connectivity object has one entry per point: what was last written since Resize, otherwise a default that no set entry can have; listeners that copy arrays when called have current copies whenever nothing is being edited; and while points are not being edited the mask of the N side of an overlap marks exactly the points listed.", "quantifier": "every grid, every sequence of Resize calls, edit sessions and writes that respects the documented conditions, sessions of different arrays nested in any way", "why_tests_cant": "The order of resizing and editing is up to the application; the tests contain only the order used by assembly, on freshly created objects.", "anchors": ["src/core/OverlapN.cpp:97-193", "src/core/OverlapM.cpp:97-167", "src/core/ConnectivityN.cpp:96-160", "src/core/ConnectivityM.cpp:99-190"]}
{"id": "C102", "title": "An assembler that was used before assembles like a new one", "statement": "Flags, overlaps and connectivity computed by Assemble do not depend on which assemblies the same assembler did before, with any grids, options and flags.", "quantifier": "all grids, options, flags and search results, all sequences of earlier assemblies", "why_tests_cant": "The data an assembler keeps between calls depends on all earlier calls; the tests assemble once, or the same grids again.", "anchors": ["src/core/AssemblerAssembly.cpp:82-203", "src/core/AssemblerAssembly.cpp:2484-2551", "src/core/AssemblerAssembly.cpp:3545-3800", "src/core/Assembler.hpp:564-606"]}
{"id": "C103", "title": "The options of an assembler follow the grids of its domain, and no grid has options with itself", "statement": "While an assembler is bound to a domain, its options are exactly those of the grids that exist in the domain. Each has the value of the last setting that covered it since the grid was created and the assembler bound, or the default; a grid that is destroyed and created again starts with defaults. Outside of an edit session every pairwise option but disjoint connections has its default for a grid with itself. Ending a session is defined exactly if the assembler is bound.", "quantifier": "all sequences of creating and destroying grids (also during a session), binding, unbinding, edit sessions and settings, with all IDs and ALL_GRIDS", "why_tests_cant": "Histories of events between domain, assembler and options are unbounded; the tests bind once and edit once.", "anchors": ["src/core/Assembler.cpp:83-323", "src/core/Assembler.cpp:435-473", "src/core/AssemblerOptions.cpp:19-55", "src/core/AssemblerOptions.cpp:460-568", "src/core/Domain.cpp:130-300"]}
{"id": "C104", "title": "Exchanges in progress at the same time do not disturb each other", "statement": "Any number of sends and receives of an exchanger may be in progress at once. If the operations have different tags and each side of an operation is waited for before it is used again, then every completed wait for a receive leaves in its array exactly what the same use of the same operation was given by its partners, in every interleaving of calls and of MPI progress, and no message or buffer is accessed out of range. If the uses can be ordered in time so that no process waits for a use before having begun all earlier ones, no execution gets stuck and every execution ends.", "quantifier": "all numbers of processes and operations, all matched maps, all programs of calls, all interleavings, all choices of MPI which sends complete before their receive is posted", "why_tests_cant": "The interleavings of several operations and the moments when MPI reads and writes buffers are not controlled by tests, and the tests run one exchange at a time.", "anchors": ["src/core/Send.cpp:98-151", "src/core/Recv.cpp:44-159", "src/core/Exchanger.cpp:1118-1121", "src/core/Exchanger.cpp:1158-1192", "src/core/Exchanger.cpp:1320-1354"]}
{"id": "C105", "title": "Objects of the C interface are destroyed exactly once", "statement": "A program that uses the C interface so that it never overwrites a pointer variable that owns something, gives back only what it owns, uses a context only while something keeps it alive and destroys exchangers only after waiting for their requests never uses or deletes memory that is not allocated. Functions that take parameters or requests by pointer-to-pointer delete them and set the variable to null; when no variable owns anything any more, every object that was allocated was deleted exactly once. A shared context exists exactly as long as some shared pointer of the program or some domain, assembler or exchanger made with it.", "quantifier": "all sequences of calls that create, share, use, wait for and destroy, all numbers of variables", "why_tests_cant": "Memory errors depend on the order of calls; the tests follow one order, and the C interface is tested through few programs.", "anchors": ["src/core-c/Context.cpp:17-114", "src/core-c/Request.cpp:14-64", "src/core-c/Exchanger.cpp:22-97", "src/core-c/Exchanger.cpp:247-260", "src/core-c/Exchanger.cpp:301-314", "src/core-c/Domain.cpp:36-100", "src/core-c/Assembler.cpp:19-62"]}
{"id": "C106", "title": "Every process learns the ranges of its neighbours", "statement": "RetrieveDecompInfo, called by all processes of a communicator, returns on each process the local and extended ranges of exactly the processes it asked for, in every interleaving and for every order in which MPI completes requests. If no process asks for the same process twice, no execution gets stuck, whether or not MPI buffers sends; a process that asks for another twice never returns.", "quantifier": "all numbers of processes, all lists of ranks, all ranges, all interleavings, all orders of completion, all choices of MPI which sends are buffered", "why_tests_cant": "Interleavings, the order of completion and the buffering of messages are chosen by MPI and the machine; tests see few of them.", "anchors": ["src/core/Decomp.cpp:213-271", "src/core/Partition.cpp:51-63", "src/core/CommunicationOps.cpp:142-198"]}
{"id": "C107", "title": "Filling a range of a distributed field fills every copy of the points the range names", "statement": "distributed_field::Fill(Range, Value), called by all processes: when it has returned, every copy of a grid point named by the range (directly, or as periodic image of a tuple outside the index space), owned or halo, is Value, and every copy of a point that is not named has the value its owner had before. With unique periodic storage, or if the range does not leave the index space, the result does not depend on the decomposition; with duplicated storage and a range that leaves the index space it does.", "quantifier": "all numbers of dimensions, carts, decompositions, ranges (also larger than a period or empty), values, orders in which processes call and messages arrive", "why_tests_cant": "Decompositions, ranges reaching over the seam and message orders multiply; the tests fill one range on one decomposition.", "anchors": ["src/core/DistributedField.hpp:125-150", "src/core/ArrayView.hpp:147-153", "src/core/Halo.inl:81-162", "src/core/Cart.inl:63-78"]}
{"id": "C108", "title": "Profiler timers measure the time their section is active", "statement": "If every Stop matches an earlier Start made while profiling was enabled, the time of a timer is exactly the time during which it had a Start without a Stop: nested uses are not counted twice, other timers do not matter, and calls made while profiling is disabled do not count. The profile written on every process has one line for each timer used on some process, in the order of the timer numbers, with the least, the greatest and the mean of the times of all processes. Enabling profiling between a Start and its Stop leads to undefined behaviour or to a timer that never stops.", "quantifier": "all histories of Enable, Disable, Start and Stop on any number of timers, with arbitrary times; all numbers of processes", "why_tests_cant": "Nested and interleaved uses of timers form an unbounded set of histories, and errors in a profile look like noise.", "anchors": ["src/core/Profiler.inl:7-79", "src/core/Profiler.cpp:115-224", "src/core/Profiler.hpp:21-43"]}
{"id": "C109", "title": "All processes agree about the grids of a domain", "statement": "If all processes make the same sequence of CreateGrid, CreateGrids, DestroyGrid and DestroyGrids, each grid with parameters on exactly the processes of a communicator and all processes with the same status logging threshold, then all calls return on all processes. Afterwards all processes list the same grid IDs in the same order: those created and not destroyed since. Each has for every grid the same name, index space, cell index space and root rank, namely those of the process with rank 0 in the communicator of the grid, and exactly the grids for which it gave parameters are local to it. Listeners hear of every creation and destruction once, in order, with LastInSequence on the last of each call. If the thresholds differ such that only some processes write status messages, creating grids never returns.", "quantifier": "all numbers of processes, all histories of calls, all memberships of communicators (overlapping or not), all orders in which collective operations complete", "why_tests_cant": "Deadlocks depend on how the processes of different grids overlap, and descriptions that differ between processes surface only much later as wrong communication.", "anchors": ["src/core/Domain.cpp:76-302", "src/core/Grid.cpp:49-174", "src/core/Grid.cpp:314-354", "src/core/CommunicationOps.cpp:20-71"]}
{"id": "C110", "title": "Status messages are written at the depth of the sections they are in", "statement": "At any time the status level of a logger is one more than the sum of the amounts of the handles that were obtained from it and still hold them (were not reset, overwritten, moved from or destroyed), its indentation is their sum, and its indicator is set iff an error or warning was written before (or reported by another process). A message is written iff its write condition holds and its kind is enabled, status messages iff their level is at most the threshold; the line has the flag, the indentation and the rank filled in. Code that uses handles as local variables leaves level and indentation as they were, also when it ends by an exception, and without handles they are 1 and 0.", "quantifier": "all sequences of operations on any number of loggers and handles, including moves, self-assignment and destruction in any order; all nestings of sections and exceptions", "why_tests_cant": "output of the logger is not tested; handles are moved and overwritten in few places, and a wrong balance shows only in later messages", "anchors": ["src/core/Logger.hpp:20-147", "src/core/Logger.inl:29-175", "src/core/Context.cpp:24-87", "src/core/Domain.cpp:33-50", "src/core/Domain.cpp:340-365"]}
{"id": "C111", "title": "StringPrint writes what printf writes", "statement": "For every format and every list of arguments for which printf is defined and which its conversion specifications use up, StringPrint returns the text printf writes, with and without debug assertions.", "quantifier": "all formats, all argument lists, all ways to write a single argument", "why_tests_cant": "the formats used by the library have no percent signs and few arguments", "anchors": ["src/core/TextProcessing.inl:79-155"]}
{"id": "C112", "title": "Serialize executes a function on one process at a time, in the order of the ranks", "statement": "When all processes of a communicator call Serialize(Comm, Func) and Func does not use the communicator, then in every execution the actions of Func on a process come after all actions of Func on processes with lower ranks; no process returns before all have executed Func; each process returns the result of its own Func, or propagates its exception; and every execution ends, with all processes having returned.", "quantifier": "for all numbers of processes, all functions that perform any number of actions on each process and return or throw, and all interleavings of the processes", "why_tests_cant": "Tests see a few interleavings with a few processes; a missing barrier shows only when processes run at unlucky speeds.", "anchors": ["src/core/CommunicationOps.inl:7-22", "src/core/CommunicationOps.hpp:60-61", "src/core/ScopeGuard.hpp:39-41"]}
{"id": "C113", "title": "Scope guards call each function exactly once unless dismissed", "statement": "In any program that creates scope guards, moves them (by construction or assignment, also to themselves), dismisses and destroys them, every function given to a guard is called at most once, and never after the guard holding it was dismissed; once all guards are gone, the functions that were called are exactly those that were not dismissed. A function is called only when the guard that holds it is destroyed or assigned to.", "quantifier": "for all sequences of operations on any number of guards", "why_tests_cant": "Tests move a guard once or twice; calling a function twice or not at all after a chain of moves is a matter of arbitrary sequences.", "anchors": ["src/core/ScopeGuard.hpp:14-41", "src/core/ScopeGuard.inl:7-54"]}
{"id": "C114", "title": "Assigning a list of values to a vector replaces its content, whatever the element type", "statement": "After a list or a range of values is assigned to a vector, or a list with matching extents to an array, it contains exactly these values, whatever it contained before; vectors of bool, which are stored differently, behave as those of other types.", "quantifier": "for all previous contents and all lists of values", "why_tests_cant": "The tests assign to empty vectors only; nothing is wrong then.", "anchors": ["src/core/Vector.hpp:31-88", "src/core/Vector.hpp:141-163", "src/core/Array.hpp:131-137"]}
{"id": "C115", "title": "Operations on whole arrays use every element exactly once", "statement": "ArrayForEach, ArrayReduce, ArrayTransform, ArrayCollapse and ArrayFill access the elements of an array in order, each exactly once, for arrays of any size; consequently ArrayNone, ArrayAny, ArrayNotAll and ArrayAll state what their names say, ArrayMin and ArrayMax return an element that bounds all others, and ArraySum returns the sum.", "quantifier": "for all arrays and views, all functions with state and all values", "why_tests_cant": "Tests use arrays with few elements; the index type matters for arrays with more than 2^31 elements only, and these do not fit into tests.", "anchors": ["src/core/ArrayOps.hpp:24-335", "src/core/ArrayOps.hpp:375-401", "src/core/ArrayOps.hpp:460-712", "src/core/Array.hpp:710-711", "src/core/ArrayView.hpp:333"]}
{"id": "C116", "title": "Arrays are values: every array owns its elements", "statement": "A program that creates, copies, moves, assigns, fills, reserves, resizes, appends to, inserts into, erases from, clears, writes to and destroys any number of ovk::array objects is defined exactly when the same program is defined for arrays as plain mathematical values (extents and a list of elements per name, no memory), and at its end every array has the extents and elements of its value. So an operation on one array never changes another one, the view through which an array is accessed always refers to the memory the array owns or to nothing, also after reallocation and moves, memory that was freed is never accessed, every allocated block is owned by exactly one array, and nothing stays allocated once all arrays are destroyed.", "quantifier": "for all element types, layouts, numbers of arrays, and finite sequences of operations with any arguments", "why_tests_cant": "whether a stale view is noticed depends on the growth of the vectors and on the allocator; tests use a few sequences of operations and memory that was freed often still holds the old elements", "anchors": ["src/core/Array.hpp:46-47", "src/core/Array.hpp:67-71", "src/core/Array.hpp:92-107", "src/core/Array.hpp:125-129", "src/core/Array.hpp:155-185", "src/core/Array.hpp:187-241", "src/core/Array.hpp:290-363"]}
{"id": "C117", "title": "ForEach visits every tuple of an interval once, in the order of the layout", "statement": "core::ForEach over an interval of any rank calls the function exactly once for each tuple in the interval and for no other, in lexicographic order of the tuples for the row-major layout and of the reversed tuples for the column-major layout, so that the call with number k has the tuple that an indexer with the same extents and layout gives for index k. array_view::Fill with an interval contained in the extents therefore sets exactly the elements with tuples in the interval and changes nothing else.", "quantifier": "for all ranks of at least one, intervals (also empty ones and ones with any begins), layouts, functions with side effects, arrays and values", "why_tests_cant": "the loops are produced by recursion over templates for every rank and layout; tests use ranks up to three", "anchors": ["src/core/ForEach.hpp:32-94", "src/core/ArrayView.hpp:147-153"]}
{"id": "C118", "title": "Exchange operations live until their connectivity changes, and use its current data", "statement": "Collects, sends, receives and disperses of an exchanger exist from their creation until they are destroyed, their connectivity is edited or destroyed, its component is destroyed or the exchanger is unbound; nothing else ends or changes them. An operation that exists works with the map made of the current contents and ranks of its connectivity, with buffers of the sizes this map needs, and with the parameters it was created with; it never refers to a map that was replaced. Waiting for a request is defined exactly if nothing has ended the life of its operation since the request was returned.", "quantifier": "all histories of binding and unbinding, of creating, editing and destroying connectivities (any number per call, any flags), and of creating, using, waiting for and destroying operations; all contents, ranks, maps and parameters", "why_tests_cant": "Operations hold references to maps that are replaced while connectivities are edited; a stale reference usually still reads plausible memory, and the combinations of edits and operations are unbounded.", "anchors": ["src/core/Exchanger.cpp:102-280", "src/core/Exchanger.cpp:779-1553", "src/core/Send.cpp:76-107", "src/core/ConnectivityComponent.cpp:127-203"]}
{"id": "C119", "title": "Calls of a connectivity component match on all processes and leave them in agreement", "statement": "Let any number of processes make any legal sequence of calls on a domain with a connectivity component: creating and destroying grids on arbitrary communicators, creating and destroying connectivities, starting and ending edits of the M and N sides of connectivities and of the component, and changing tables. Then every execution ends, in every order in which collective operations of different communicators are completed and with or without OVK_DEBUG. Afterwards every process knows exactly the existing grids and connectivities, has the M and N sides of connectivities for exactly those grids it is a member of, and all processes have told their listeners the same: in each call first all changes not announced before, once per connectivity, then what is created or destroyed. The calls for sides have to be made by all processes of the grid: if one of them leaves out an edit that begins or ends the editing of a side, no execution ends.", "quantifier": "all numbers of processes, all memberships of communicators, all legal sequences of calls, all executions", "why_tests_cant": "A deadlock from operations that do not match appears only for particular memberships and orders of calls; tests run few processes, few grids and one order of completion.", "anchors": ["src/core/ConnectivityComponent.cpp:63-203", "src/core/ConnectivityComponent.cpp:221-511", "src/core/ConnectivityComponent.cpp:564-630", "src/core/ConnectivityComponent.cpp:671-799", "src/core/ConnectivityM.cpp:26-77", "src/core/ConnectivityN.cpp:26-74", "src/core/Domain.cpp:130-302", "src/core/Domain.inl:38-65"]}
{"id": "C120", "title": "Operations on boxes agree with the sets of points of the boxes", "statement": "A box stands for the closed set of points between its corners. Contains, Empty and Includes are membership, having no points, and inclusion; BoxesOverlap holds exactly if there is a common point; IntersectBoxes is the intersection; UnionBoxes and ExtendBox give the smallest box with the points of both operands, and extending an empty box by points one after another gives the bounding box of the points; ClampToBox gives the nearest point of the box and leaves points of the box alone; MoveBox moves the points; GrowBox gives the points near the box, or for negative amounts those with their whole neighbourhood in the box; ScaleBox scales the points about the middle; Volume is the product of the extents, does not decrease with more points, is kept by moving and multiplied by the factors when scaling. In particular moving, growing and scaling an empty box gives an empty box.", "quantifier": "all boxes, points, amounts and factors, all numbers of dimensions; rounding is arbitrary where mentioned", "why_tests_cant": "Tests compare corners of a few boxes, mostly with small round numbers, and none of them scales or moves an empty box.", "anchors": ["src/core/Box.inl:6-145", "src/core/Interval.hpp:33-89", "src/core/Interval.hpp:194-230"]}
{"id": "C121", "title": "Programs in C read and change the tables of overlaps and connectivities as the C++ interface shows them", "statement": "The C interface gives out pointers to columns of the tables (extents, coordinates, coefficients, destinations, points, sources, ranks). For every program that uses a pointer only until the size changes, with positions that exist, writes only through pointers from Edit calls while the table is edited, and ends only what was begun: each call succeeds; afterwards the C++ interface shows at each place the value written there last, or the initial value; reads give these values; a table is being edited exactly while handles are left, whatever the order of nested Edit and Restore calls; listeners hear one event whenever the last handle of a table is given back, and the events of all tables when the size changes. Every session can be ended by calling functions that the headers declare and the library defines.", "quantifier": "all four classes, all tables and columns, all histories of calls and accesses, all sizes and stencil sizes, all values", "why_tests_cant": "Tests of the C interface do not exist in the repository; a declared but undefined function shows up only in a program that calls it, and wrong strides only in tables with several columns and rows that all differ.", "anchors": ["src/core-c/ConnectivityM.cpp:136-409", "src/core-c/ConnectivityN.cpp:126-278", "src/core-c/OverlapM.cpp:125-322", "src/core-c/OverlapN.cpp:124-282", "src/core/Editor.inl:36-63"]}
{"id": "C122", "title": "The communication of an exchanger matches on all processes, and no change is left out", "statement": "From being bound to being unbound, an exchanger communicates when events come: it looks for the ranks of donors and receivers with handshakes and three rounds of messages. If all processes hear the same events, as they do when calls of the connectivity component match, then in every execution some process can go on until all have finished, every receive gets the message meant for it, and no message is left. There is exactly one update for binding and one for each sequence of events that ends with the mark of the last one; it looks for ranks of exactly the connectivities that were created or whose destinations or sources changed, and resets the operations of exactly those created or changed. After any legal history of component calls nothing is left to be updated. If one process misses an event, this no longer holds.", "quantifier": "all numbers of processes, all histories of component calls before and after binding, all donors and receivers at each update, all interleavings", "why_tests_cant": "A test sees the schedules that happen on the machine; a deadlock after a missed event, or a connectivity whose ranks are not updated after a particular combination of event flags, needs particular histories and interleavings.", "anchors": ["src/core/Exchanger.cpp:101-143", "src/core/Exchanger.cpp:145-168", "src/core/Exchanger.cpp:191-224", "src/core/Exchanger.cpp:226-248", "src/core/Exchanger.cpp:282-777"]}
{"id": "C123", "title": "Importing connectivity data makes matching calls on all processes and creates exactly the connectivities with connections", "statement": "After an XINTOUT file has been read, matched and distributed, importing it into a connectivity component is a sequence of collective calls that each process derives from its own donors and receivers and from a sum over all processes. For every legal history of calls before, if the grids exist and the component is not being edited, if processes have donors and receivers only of grids they are members of, with partners among the grids and for each donor some receiver, and if the connectivities do not exist yet, then all executions end without error on all processes. Exactly the connectivities between a pair of grids for which some process has a receiver are added, and all processes agree on them. Listeners hear of changes made before, then that each new connectivity was created, each once and on all processes in the same order, and then once for each of them that all of its tables changed.", "quantifier": "all numbers of processes, all histories of component calls, all numbers of grids and all decompositions, all distributions of donors and receivers, all interleavings", "why_tests_cant": "A process that skips one edit session, or counts connections from its own receivers only, blocks the others only when the decomposition gives processes different data; a test has one decomposition and one schedule.", "anchors": ["src/extras/XINTOUT.cpp:2413-2515", "src/extras/XINTOUT.cpp:2517-2593", "src/extras/XINTOUT.cpp:2595-2650"]}
{"id": "C124", "title": "Messages that match and distribute XINTOUT data meet their receives and no process waits forever", "statement": "To import an XINTOUT file, processes send the donors and receivers they read to bins by connection ID, get answers, and then, grid by grid, build a distributed region hash of the decomposition, retrieve bins of it and send donors and receivers to the processes that own them. If the ranks that processes compute are ranks of the communicator and handshakes tell each process exactly who named it, then in all executions, whether or not synchronizing timers are enabled, each receive gets the message meant for it, barriers and reductions meet the same barrier or reduction on all processes of their communicator, and as long as some process has not finished some process can go on. The same holds for building a hash and retrieving bins on any communicator by itself. It would not hold if processes visited their grids in different orders.", "quantifier": "all numbers of processes, all sets of grids and their processes, all distributions of donors, receivers, regions and bins, all interleavings", "why_tests_cant": "Receives are posted process by process and sends region by region, and answers are received across two synchronization points; an order that goes wrong needs a region that overlaps several processes, or timers that are enabled, and a particular schedule.", "anchors": ["src/extras/XINTOUT.cpp:1492-1890", "src/extras/XINTOUT.cpp:1892-1916", "src/extras/XINTOUT.cpp:1918-2411", "src/core/DistributedRegionHash.inl:18-297", "src/core/DistributedRegionHash.inl:334-608"]}
{"id": "C125", "title": "Messages of overlap detection meet their receives and no process waits forever", "statement": "To detect overlap, processes look up who may overlap whom in a distributed hash of fragments, tell each other which fragments are needed, and later exchange ranges of cells, numbers of overlapping points and overlap data. Both sides compute by themselves whom they will hear from. For each pair of grids the processes that an M process expects are exactly those whose search found a fragment of it. In all executions, with or without synchronizing timers, each receive gets the message meant for it, collective operations meet the same operation on all processes of their communicator, and as long as some process has not finished some process can go on. This relies on the M grid being the tag of a message: with one tag for all grids, numbers of points would be received for the wrong pair of grids.", "quantifier": "all numbers of processes, grids and their distribution, all results of the search, all interleavings", "why_tests_cant": "Receives are posted in the order of M grids and sends in the order of N grids, and messages are skipped for pairs of processes that turn out not to overlap; a mistake shows only when two processes share several pairs of grids, and then as a hang or as mixed-up data.", "anchors": ["src/core/AssemblerAssembly.cpp:847-1036", "src/core/AssemblerAssembly.cpp:1045-1290", "src/core/AssemblerAssembly.cpp:1835-1964", "src/core/AssemblerAssembly.cpp:2051-2100", "src/core/AssemblerAssembly.cpp:2135-2289"]}
{"id": "C126", "title": "Grids with fewer dimensions than are stored behave like grids with just their own dimensions", "statement": "All tuples, ranges and index spaces store three dimensions. For a two-dimensional grid the third is 0 to 1 and not periodic. Emptiness, number and order of points, containment, overlap, unions, intersections, extension, clamping, periodic adjustment, mapping into ranges, cells of points and points of cells, extended ranges, subregions, cutting of ranges, neighbours and positions in arrays computed with the stored dimensions are exactly those of the grid without them. However the parameters of a grid are set, in whatever order and number, they are those of a grid of the dimension last set: unused dimensions are 0 to 1 and not periodic, ranges are not empty, and every parameter in every dimension is what the latest call that concerns it says.", "quantifier": "all numbers of dimensions used and stored, all ranges, tuples and index spaces, all sequences of calls that set parameters", "why_tests_cant": "Each function loops over either the dimension of the grid or all stored dimensions; a loop over the wrong one shows up only in two-dimensional cases and only in some functions.", "anchors": ["src/core/Grid.cpp:48-89", "src/core/Grid.cpp:192-312", "src/core/Grid.hpp:53-78", "src/core/Decomp.cpp:104-212", "src/core/Cart.inl:21-161", "src/core/Range.inl:6-100", "src/core-c/Grid.cpp:196-371", "src/core/Partition.cpp:28-47", "src/core/AssemblerAssembly.cpp:232-248", "src/core/AssemblerAssembly.cpp:318-324"]}
{"id": "C127", "title": "Calls of geometry and state components match on all processes, and descriptions of geometries are right", "statement": "In every legal history of creating and destroying grids, creating, destroying and clearing geometries (states), acquiring and restoring handles for them and for the component, editing coordinates (flags) and setting periodic lengths, all calls end in every execution, with and without debug checks: collective operations of the processes always meet, nothing is accessed that does not exist, and no assertion fails. Afterwards each process knows the grids and geometries, has the geometries on its grids with their current values, and all listeners have been told the same events in the same order: pending edits first, once each in the order of the IDs, then what is created or destroyed, the last event of a kind being marked. If a process of the grid leaves out a first edit, a last restore or a change of coordinates, no execution ends. The description (geometry_info) that every process has of every geometry, also of those on other grids, has the type and the periodic length of the geometry.", "quantifier": "all numbers of processes, communicators and ranks in them, all legal histories of calls, all executions", "why_tests_cant": "Which processes reach which collective operation depends on which grids they have, on reference counts of editors and on events of other components; a mismatch hangs only with some distribution of grids and some histories.", "anchors": ["src/core/GeometryComponent.cpp:58-618", "src/core/Geometry.cpp:32-137", "src/core/Geometry.cpp:145-279", "src/core/Geometry.cpp:302-333", "src/core/StateComponent.cpp:58-600", "src/core/State.cpp:26-129", "src/core/Domain.inl:38-65"]}
{"id": "C128", "title": "Values of maps that are not contiguous stay where they are until erased or replaced, and are destroyed once", "statement": "In every history of calls on any number of maps whose values are stored apart (map_noncontig: the grids and components of a domain, the data of components, listeners), a value stays in the object in which it was created until it is erased, replaced by Insert, or its map is cleared, assigned to or destroyed: inserting and erasing other keys, Fetch, Reserve, growing storage, writing through references and moving the map to another variable leave it in place, so pointers and references to it (as handed out by the C interface) stay valid. Insert of an existing key makes a new object and destroys the old one. Copies have objects of their own. The live objects are exactly the values of the maps, each held under one key of one map; no null or dangling pointer is read, nothing is destroyed twice, and when all maps are gone nothing is left.", "quantifier": "all key types with a strict total order, all value types, all legal histories of calls on any number of maps, with and without growth of storage at each call", "why_tests_cant": "A reference that dangles after another key is inserted shows only if the freed memory has been reused, and a shared or leaked object only in particular orders of moves and copies; tests look at values, not at where they are.", "anchors": ["src/core/Map.hpp:62-98", "src/core/Map.hpp:108-148", "src/core/Map.hpp:150-519", "src/core/Vector.hpp:218-249", "src/core/Array.hpp:330-362"]}
{"id": "C129", "title": "Every option of the assembler can be read and set on its own, in C++ and in C", "statement": "After every sequence of accepted calls (set and reset functions of the C++ and the C interface for each of the thirteen options, adding and removing grids, the resets at the end of an edit), reading an option for a grid or an ordered pair of grids gives the value of the last setting or reset of that very option that was for it (by ID or by ALL_GRIDS in either place) since the grids were added, and its documented default otherwise; the C function returns the same as the C++ function. A function for one option never changes what is read for another. Removing grids forgets every option of them and of all pairs they are in, and keeps all others. A call is accepted exactly if the IDs it names are known or ALL_GRIDS and the value is permitted (tolerance, padding, smoothing and fringe size not negative; occludes and connection type one of the enumerators); reading is accepted exactly for known grids. At the end of an edit all options of a grid with itself are the defaults except DisjointConnections, which is kept.", "quantifier": "all sequences of calls, all thirteen options, all grid IDs and pairs, all values", "why_tests_cant": "There are 39 functions in C++ and 39 in C that differ only in names and defaults; a copied line that uses the wrong table, default or order of the pair is seen only by a test of that very function with values different from all defaults.", "anchors": ["src/core/AssemblerOptions.cpp:19-363", "src/core/AssemblerOptions.cpp:460-568", "src/core-c/Assembler.cpp:360-753", "src/core/Assembler.cpp:259-273", "src/core/Assembler.h:15-53"]}
{"id": "C130", "title": "Objects of a domain are destroyed while everything their destructors use exists", "statement": "In every program that makes and copies contexts, creates, moves, assigns and destroys domains, creates and destroys their grids and components, and creates and destroys geometries, states, overlaps and connectivities in them, in any order the assertions permit, no destructor uses, frees or dereferences anything that does not exist any more: communicators in barriers, the context for messages, the grid of an object, the domain of a component, the event of a listener. Destroying a domain writes the messages of the objects of each component before that of the component, components before grids, grids before the end of the domain. A context exists exactly while the program holds a pointer to it or a domain with it exists, so a program may give up its pointer first; the last one ends it. When all domains are gone and all pointers given up, no communicator, location, grid, listener or context is left.", "quantifier": "all programs of these operations of any length, any number of domains, contexts, grids, components and objects", "why_tests_cant": "The order is made by the order of bases and members in a dozen classes and by generated special members; a use after destruction usually reads memory that still looks right, so tests pass.", "anchors": ["src/core/Domain.cpp:33-52", "src/core/Domain.cpp:337-406", "src/core/Domain.hpp:85-133", "src/core/DomainBase.hpp:72-167", "src/core/Grid.cpp:37-45", "src/core/Grid.cpp:167-174", "src/core/Geometry.cpp:33-49", "src/core/Geometry.cpp:93-100", "src/core/GeometryComponent.cpp:30-97", "src/core/GeometryComponent.hpp:163-180", "src/core/Event.inl:18-72", "src/core/FloatingRef.inl:14-73", "src/core/Context.cpp:75-86"]}
{"id": "C131", "title": "Halo exchanges in progress at the same time do not disturb each other", "statement": "All processes of a grid start the same halo exchanges in the same order; apart from that they start, wait for one, any or all of them, and change fields whenever they like. Then for every message order MPI permits: when an exchange is complete on a process, what each neighbour sent for it was unpacked exactly once, each point then got the value the neighbour had in that field when it started this exchange, and nothing else in any field changed; a new exchange never uses buffers of one in progress, and makes new buffers only if all of its data type are in use. An exchange that a process and all its neighbours have started completes without any further call by the neighbours.", "quantifier": "all halo maps that fit together, all data types, all numbers of processes and exchanges, all interleavings of starts, waits, field changes and MPI transfers", "why_tests_cant": "Buffers are reused through a flag that is cleared when a wait ends; mixing two exchanges needs several in progress and a certain order of messages, which a test gets by chance only.", "anchors": ["src/core/Halo.inl:18-54", "src/core/Halo.inl:56-170", "src/core/Halo.hpp:78-152", "src/core/Halo.hpp:160-234", "src/core/DataType.hpp:91-156", "src/core/Request.cpp:104-206"]}
{"id": "C132", "title": "Assemblers and exchangers stay bound to their domain wherever either is moved", "statement": "After every program that creates, moves, assigns and destroys domains, assemblers and exchangers and binds and unbinds them as the assertions accept, every operation is defined: a bound object finds its domain where the domain is now, an event of a domain calls exactly the objects bound to it, each once and where it is now, and destroying an object uses nothing that no longer exists.", "quantifier": "all programs of creating, move constructing, move assigning, destroying, binding, unbinding, using and triggering, with any number of domains, assemblers and exchangers at any addresses", "why_tests_cant": "It depends on the order in which objects end and on where they were moved before; a use of a freed cell often goes unnoticed, and tests keep objects in the order of declaration.", "anchors": ["src/core/Exchanger.cpp:52-176", "src/core/Assembler.cpp:32-216", "src/core/Event.inl:8-66", "src/core/FloatingRef.inl:6-83", "src/core/Domain.hpp:85-136", "src/core/Domain.cpp:355-364"]}
{"id": "C133", "title": "Views show the elements of their array wherever it is moved", "statement": "A view of an array, of a part of it or with other extents shows the elements the array has now, also after the array has been moved to another one, cleared, or changed in size within the room it has. What is assigned through a view, one element, all of them, or those of a list, another view or an array, becomes the content of that part of the array, is seen by all other views of it, and no other element of any array changes. When the array is destroyed, another array is moved over it, or it gets more room, its views must not be used any more.", "quantifier": "all programs with any number of arrays and views; all element types, extents, ranks and layouts; sources may be in the same array if they do not start before the view that is filled", "why_tests_cant": "A view that outlives the memory of its array mostly still shows the old elements; whether it does depends on capacities and on the order of moves and changes.", "anchors": ["src/core/ArrayView.hpp:66-110", "src/core/ArrayView.hpp:140-192", "src/core/ArrayView.hpp:256-300", "src/core/ArrayView.hpp:333", "src/core/Array.hpp:29-260", "src/core/Array.hpp:777-778"]}
{"id": "C134", "title": "Values are treated as values of the data type that was named", "statement": "Whatever data type, array layout and operation a program names when it creates a collect, send, receive or disperse of an exchanger, what is made works on elements of the type of C++ with this name, in this layout, with this operation; interpolation is made exactly for floating point types. Values that are sent and received with the same data type, and values a collect or halo exchange gets from other processes, arrive with the same bytes, and nothing behind them is written; messages match only if the data types are the same or both are booleans or bytes. The size of a data type is that of its element type, the predicates tell what kind of numbers it has, the sized names stand for a type of that size wherever there is one, and the type of MPI given for a data type has the same size and kind of numbers.", "quantifier": "all data types, operations and layouts, all numbers of values, all memory contents, all platforms permitted by the C++ standard on which a bool takes one byte, both byte orders", "why_tests_cant": "There are several hundred combinations, each its own line in a switch statement; tests use double and int on one platform.", "anchors": ["src/core/DataType.h:17-162", "src/core/DataType.hpp:18-155", "src/core/CollectRow.cpp:35-433", "src/core/CollectCol.cpp:35-433", "src/core/Collect.hpp:88-303", "src/core/Disperse.cpp:29-250", "src/core/Send.cpp:115-136", "src/core/Send.cpp:178-221", "src/core/Recv.cpp:59-70", "src/core/Recv.cpp:184-227", "src/core/Exchanger.cpp:912-945", "src/core/Exchanger.cpp:1450-1462"]}
{"id": "C135", "title": "A cell is the same set of points whatever geometry type was declared", "statement": "The overlap test of a grid reads the corners of the cell from the coordinate fields, in whatever way its geometry type says, and accepts (with tolerance zero) exactly the points of the segment, parallelogram or parallelepiped with these corners, as long as this shape is of the declared type and not degenerate; so declaring a more general type than necessary does not change the answer. The bounds of the cell contain all its corners, are attained by them, and all their entries are determined.", "quantifier": "all coordinate fields over an ordered field, all ranges, all cells in the range, all points, all five geometry types, one to three dimensions", "why_tests_cant": "Each type and dimension has its own code that reads other entries of the coordinate fields; tests use few cells. An entry never written often happens to be zero.", "anchors": ["src/core/GeometryOps.inl:23-240", "src/core/GeometryOps.inl:770-944", "src/core/GeometryManipulator.hpp:55-123", "src/core/Box.inl:6-21", "src/core/Interval.hpp:26-31", "src/core/Elem.hpp:87-91"]}
