{"id": "C01", "title": "Linear and 2-D cell addresses are in bijection", "statement": "For a raster of given width and height, xyToI maps every in-grid coordinate pair to a distinct linear index below width*height, iToxy inverts it, and every linear index below width*height is hit exactly once.", "quantifier": "all widths, heights, coordinates and linear indices", "why_tests_cant": "The claim is about every raster size and every cell; a test fixes a handful of sizes.", "anchors": ["include/richdem/common/Array2D.hpp: xyToI, iToxy, inGrid, size"]}
{"id": "C02", "title": "Neighbour lookup never leaves or wraps around the raster", "statement": "Asking for the n-th neighbour of a cell by linear index (getN / nToI) reports 'outside' exactly when the neighbour's coordinates are outside the raster, and otherwise returns the linear index of precisely that neighbour; for interior cells the cached shift nshift(n) gives the same answer.", "quantifier": "all raster sizes, all cells, all eight directions and all dx,dy shifts", "why_tests_cant": "Row wrap-around errors appear only for particular widths/columns; no finite set of rasters covers them.", "anchors": ["include/richdem/common/Array2D.hpp: nToI, getN, nshift, isEdgeCell, _nshift", "include/richdem/common/constants.hpp: d8x,d8y"]}
{"id": "C03", "title": "Direction tables are consistent and ArcGIS codes round-trip", "statement": "Following direction n and then its inverse returns to the start, for D8 and D4; the eight directions reach eight different cells and exactly the cells at king-move (resp. rook-move) distance one; converting RichDEM directions to ArcGIS codes and back is the identity and every non-ArcGIS code is rejected.", "quantifier": "all cells, all directions, all 8-bit codes", "why_tests_cant": "Downstream algorithms rely on the law at every coordinate, and the rejection part ranges over all code values.", "anchors": ["include/richdem/common/constants.hpp: d8x,d8y,d4x,d4y,d8_inverse,d4_inverse,d8_arcgis", "include/richdem/misc/conversion.hpp: convert_arc_flowdirs_to_richdem_d8"]}
{"id": "C04", "title": "Priority-Flood (Original) computes the minimal drained surface", "statement": "After PriorityFlood_Original each cell's elevation equals the smallest water level z such that some path from the cell to the raster perimeter stays at or below z (the minimum over paths of the maximum original elevation on the path).", "quantifier": "all rasters, all elevations, both topologies, every order in which equal priority-queue entries are popped", "why_tests_cant": "The path minimum ranges over unboundedly many paths, and the queue's tie order is unspecified; tests check particular terrains under one heap implementation.", "anchors": ["include/richdem/depressions/Barnes2014.hpp: PriorityFlood_Original", "include/richdem/common/grid_cell.hpp: GridCellZ, GridCellZ_pq"]}
{"id": "C05", "title": "Priority-Flood (Barnes2014) computes the same minimal drained surface", "statement": "PriorityFlood_Barnes2014, which uses a FIFO pit queue to bypass the heap, yields exactly the same minimal drained surface as the specification of C04, hence the same raster as PriorityFlood_Original.", "quantifier": "all rasters, elevations, both topologies, every heap tie order", "why_tests_cant": "Equality of two algorithms for every terrain and tie order.", "anchors": ["include/richdem/depressions/Barnes2014.hpp: PriorityFlood_Barnes2014"]}
{"id": "C06", "title": "Depression filling never lowers a cell and leaves the perimeter alone", "statement": "For every filling routine the output is at least the input at every cell, and perimeter cells keep their input elevation.", "quantifier": "all rasters and elevations, both topologies", "why_tests_cant": "Safety claim over all terrains.", "anchors": ["include/richdem/depressions/Barnes2014.hpp: PriorityFlood_Original, PriorityFlood_Barnes2014, PriorityFloodEpsilon_Barnes2014"]}
{"id": "C07", "title": "A filled raster drains, and the depression detector agrees", "statement": "HasDepressions returns false on a raster exactly when every cell has a non-ascending path to the perimeter, equivalently exactly when filling changes nothing; in particular it returns false on every output of the fillers.", "quantifier": "all rasters, both topologies, all heap tie orders", "why_tests_cant": "Both directions quantify over all terrains and all paths.", "anchors": ["include/richdem/depressions/Barnes2014.hpp: HasDepressions"]}
{"id": "C08", "title": "Depression filling is idempotent and monotone", "statement": "Filling a filled raster changes nothing; filling a raster that is cell-wise higher gives a cell-wise higher result.", "quantifier": "all pairs of rasters", "why_tests_cant": "Relational property over pairs of runs.", "anchors": ["include/richdem/depressions/Barnes2014.hpp: PriorityFlood_Original, PriorityFlood_Barnes2014"]}
{"id": "C09", "title": "Every run of Priority-Flood terminates after visiting each cell once", "statement": "The flood loops terminate; every in-grid cell is closed and processed, and each non-perimeter cell enters a queue exactly once; no access is outside the raster.", "quantifier": "all rasters, both topologies, all tie orders", "why_tests_cant": "Termination and memory safety over all inputs cannot be tested.", "anchors": ["include/richdem/depressions/Barnes2014.hpp: all priority-flood loops"]}
{"id": "C10", "title": "Epsilon filling leaves no flats or depressions", "statement": "After PriorityFloodEpsilon_Barnes2014 every data cell is at least as high as before, and every non-perimeter data cell has a strictly lower neighbour or touches NoData/was seeded, so that a strictly descending path leads to the perimeter or NoData.", "quantifier": "all rasters for which the elevation type has head-room above each value; all tie orders", "why_tests_cant": "Must hold for every terrain and every queue schedule.", "anchors": ["include/richdem/depressions/Barnes2014.hpp: PriorityFloodEpsilon_Barnes2014"]}
{"id": "C11", "title": "Priority-Flood flow directions drain every cell off the raster", "statement": "Following the directions assigned by PriorityFloodFlowdirs_Barnes2014 from any cell leaves the raster (or reaches a NoData cell) after finitely many steps; there are no cycles and no data cell is left without a direction.", "quantifier": "all rasters, all heap tie orders", "why_tests_cant": "Acyclicity over arbitrary terrain with plateaus and nested depressions.", "anchors": ["include/richdem/depressions/Barnes2014.hpp: PriorityFloodFlowdirs_Barnes2014"]}
{"id": "C12", "title": "Watershed labels partition the raster along drainage", "statement": "PriorityFloodWatersheds_Barnes2014 labels every cell connected to the perimeter; a label inside the raster is inherited from an adjacent already-labelled cell, so each watershed is connected to the outlet that created it, and the elevations are either untouched or exactly the filled surface as requested.", "quantifier": "all rasters, both alter_elevations settings, all tie orders", "why_tests_cant": "Quantifies over all terrains and schedules.", "anchors": ["include/richdem/depressions/Barnes2014.hpp: PriorityFloodWatersheds_Barnes2014"]}
{"id": "C13", "title": "The pit mask marks exactly the cells that filling would raise", "statement": "pit_mask returns 1 exactly at cells whose filled elevation exceeds their own, and does not modify the DEM.", "quantifier": "all rasters", "why_tests_cant": "Equivalence with the path-minimum specification for every terrain.", "anchors": ["include/richdem/depressions/Barnes2014.hpp: pit_mask"]}
{"id": "C14", "title": "Size-limited filling fills every small depression", "statement": "PriorityFlood_Barnes2014_max_dep fills every depression with at most max_dep_size cells and leaves larger ones as they were.", "quantifier": "all rasters and size limits", "why_tests_cant": "The order in which depressions are met depends on the whole terrain.", "anchors": ["include/richdem/depressions/Barnes2014.hpp: PriorityFlood_Barnes2014_max_dep"]}
{"id": "C15", "title": "All depression fillers compute the same surface", "statement": "FillDepressions (Zhou2016 for D8, Barnes2014 for D4), Zhou2016, Wei2018 and Barnes2014 return identical rasters on the same DEM without NoData.", "quantifier": "all rasters", "why_tests_cant": "Program equivalence over all inputs.", "anchors": ["include/richdem/depressions/Zhou2016.hpp", "include/richdem/depressions/Wei2018.hpp", "include/richdem/depressions/depressions.hpp"]}
{"id": "C16", "title": "D8 flow direction points to a lowest neighbour", "statement": "d8_FlowDir of an interior cell is NO_FLOW exactly when no neighbour is lower or is NoData-like; otherwise it names an in-grid neighbour that is a lowest one, preferring orthogonal over diagonal neighbours among ties; edge cells flow outward.", "quantifier": "all rasters and cells", "why_tests_cant": "All elevation configurations of nine cells over an ordered type.", "anchors": ["include/richdem/flowmet/d8_flowdirs.hpp: d8_FlowDir, d8_flow_directions"]}
{"id": "C17", "title": "O'Callaghan (D8/D4) flow metric sends all flow to a lowest strictly lower neighbour", "statement": "FM_OCallaghan marks a cell HAS_FLOW with exactly one unit proportion, to a neighbour in the requested topology that is strictly lower and lowest; NoData and pit cells are marked; and FlowAccumulation sends the flow to that very neighbour.", "quantifier": "all rasters, both topologies", "why_tests_cant": "Ranges over all terrains and the composition of two modules.", "anchors": ["include/richdem/flowmet/OCallaghan1984.hpp: FM_OCallaghan", "include/richdem/methods/flow_accumulation_generic.hpp"]}
{"id": "C18", "title": "Multiple-flow proportions are a probability distribution over downslope neighbours", "statement": "For Freeman, Quinn and Holmgren metrics a cell with a lower neighbour distributes non-negative proportions that sum to one over strictly lower data neighbours only; a cell with none is marked as having no flow.", "quantifier": "all rasters, all exponents", "why_tests_cant": "Sums over all terrain configurations; exact arithmetic is only available in a model.", "anchors": ["include/richdem/flowmet/Freeman1991.hpp", "include/richdem/flowmet/Quinn1991.hpp", "include/richdem/flowmet/Holmgren1994.hpp"]}
{"id": "C19", "title": "D-infinity splits flow between two adjacent directions with proportions summing to one", "statement": "FM_Tarboton gives at most two non-zero proportions, in circularly adjacent directions, each in [0,1] and summing to one; area_proportion in the angle-based method does the same.", "quantifier": "all angles and facets", "why_tests_cant": "Angles are a continuum.", "anchors": ["include/richdem/flowmet/Tarboton1997.hpp", "include/richdem/methods/dinf_methods.hpp: where_do_i_flow, area_proportion"]}
{"id": "C20", "title": "Flow accumulation is the upstream sum and conserves mass", "statement": "FlowAccumulation gives each cell its own input plus the proportion-weighted accumulation of each upstream neighbour; for acyclic flow every data cell is processed, and the total leaving the system equals the total put in.", "quantifier": "all rasters, all acyclic proportion grids, all queue orders", "why_tests_cant": "Recurrence over unbounded flow networks.", "anchors": ["include/richdem/methods/flow_accumulation_generic.hpp: FlowAccumulation"]}
{"id": "C21", "title": "D8 accumulation counts the upstream cells", "statement": "d8_flow_accum gives each cell the number of data cells whose flow path passes through it (itself included), for every direction grid; cells on or downstream of a cycle are never reported as fully processed and the loop terminates.", "quantifier": "all direction grids including cyclic ones", "why_tests_cant": "Arbitrary networks and cycles.", "anchors": ["include/richdem/methods/d8_methods.hpp: d8_flow_accum"]}
{"id": "C22", "title": "D8 upslope set is exactly the contributing area", "statement": "The flood in d8_upslope_cells marks exactly the cells whose flow path reaches the seed line.", "quantifier": "all direction grids and seeds", "why_tests_cant": "Reachability over unbounded networks.", "anchors": ["include/richdem/methods/d8_methods.hpp: d8_upslope_cells"]}
{"id": "C23", "title": "Flat finding classifies every cell correctly", "statement": "FindFlats marks NoData cells NO_DATA, perimeter cells and cells with a lower or NoData neighbour NOT_A_FLAT, and every other cell IS_A_FLAT.", "quantifier": "all rasters", "why_tests_cant": "Every cell of every raster.", "anchors": ["include/richdem/flats/find_flats.hpp: FindFlats"]}
{"id": "C24", "title": "Flat labels are the connected equal-elevation regions that can drain", "statement": "Flood labelling of flats assigns one label to precisely the cells connected to the seed through equal elevations; distinct seeds outside an already labelled region get distinct labels.", "quantifier": "all rasters and seeds", "why_tests_cant": "Connectivity over arbitrary shapes.", "anchors": ["include/richdem/flats/Barnes2014.hpp: LabelFlat, GetFlatMask"]}
{"id": "C25", "title": "Flat gradients equal graph distances and always lead to an outlet", "statement": "The gradient built towards lower terrain gives each flat cell its breadth-first distance to the nearest low edge within its flat (and every such cell has a neighbour one step nearer), so masked flow directions lead out of the flat.", "quantifier": "all flats of all shapes", "why_tests_cant": "Unbounded shapes and path lengths.", "anchors": ["include/richdem/flats/Barnes2014.hpp: BuildAwayGradient, BuildTowardsCombinedGradient"]}
{"id": "C26", "title": "Flat resolution edits only the cells it should", "statement": "ResolveFlatsEpsilon and ResolveFlatsFlowdirs modify only cells with a positive flat mask / no-flow cells in flats, for rasters of any shape, square or not.", "quantifier": "all rasters, all aspect ratios", "why_tests_cant": "Index arithmetic errors show only on particular shapes.", "anchors": ["include/richdem/flats/Barnes2014.hpp: ResolveFlatsEpsilon_Barnes2014, ResolveFlatsFlowdirs_Barnes2014"]}
{"id": "C27", "title": "Disjoint sets implement the generated equivalence relation", "statement": "After any sequence of makeSet/unionSet/findSet calls, sameSet(a,b) holds exactly when a and b are connected by the unions made so far; findSet always terminates, returns a member of the set and is unaffected by other queries.", "quantifier": "all operation sequences and element ids", "why_tests_cant": "All histories.", "anchors": ["include/richdem/common/disjoint_dense_int_set.hpp: DisjointDenseIntSet"]}
{"id": "C28", "title": "mergeAintoB makes B's representative the representative of the merged set", "statement": "When a and b are representatives of different sets, mergeAintoB(a,b) merges the two sets with b as representative; other sets are unaffected. (When the ids are not representatives the structure can be corrupted.)", "quantifier": "all states and ids", "why_tests_cant": "All histories.", "anchors": ["include/richdem/common/disjoint_dense_int_set.hpp: mergeAintoB", "include/richdem/depressions/depression_hierarchy.hpp: GetDepressionHierarchy"]}
{"id": "C29", "title": "The LRU list orders entries by last use and evicts the oldest", "statement": "After any sequence of insert/prune/pop_back operations the LRU holds each key once, most recent first, reports full/size correctly, and back() is the least recently used key.", "quantifier": "all operation sequences", "why_tests_cant": "All histories.", "anchors": ["include/richdem/tiled/lru.hpp: LRU"]}
{"id": "C30", "title": "The radix heap is a correct monotone priority queue", "statement": "Pushing and popping in any monotone sequence, top() is a minimum of the multiset of contained keys, pop removes it, size counts, and values travel with their keys.", "quantifier": "all monotone operation sequences, all key widths", "why_tests_cant": "All histories and bit patterns.", "anchors": ["include/richdem/common/radix_heap.hpp: radix_heap, pair_radix_heap, encoder"]}
{"id": "C31", "title": "Radix-heap key encodings preserve order and are invertible", "statement": "Encoding signed integers and IEEE floats as unsigned integers preserves the numeric order and decodes to the original.", "quantifier": "all 2^32/2^64 bit patterns", "why_tests_cant": "Too many values; the order law is about pairs.", "anchors": ["include/richdem/common/radix_heap.hpp: encoder"]}
{"id": "C32", "title": "Priority-queue cell orderings are strict weak/total orders with the documented tie rule", "statement": "GridCellZ's comparisons (NaN lowest) form a strict weak order; GridCellZk_low/_high break elevation ties by insertion order (FIFO / LIFO), so the queue is deterministic.", "quantifier": "all cells incl. NaN", "why_tests_cant": "Order axioms quantify over triples; NaN cases are easy to miss.", "anchors": ["include/richdem/common/grid_cell.hpp"]}
{"id": "C33", "title": "Wrapped memory is never freed by the raster", "statement": "A ManagedVector/Array2D that wraps caller-owned memory never deletes it, an owning one frees its own exactly once, and copies are independent, for any sequence of copies, moves, assignments and resizes.", "quantifier": "all operation histories", "why_tests_cant": "Ownership over all histories, including self-moves.", "anchors": ["include/richdem/common/ManagedVector.hpp"]}
{"id": "C34", "title": "Raster flips and transposes are the geometric operations", "statement": "flipVert, flipHorz and transpose move the value at each cell to the mirrored/transposed cell, and applying each twice restores the raster.", "quantifier": "all raster sizes and contents", "why_tests_cant": "Every shape, particularly non-square.", "anchors": ["include/richdem/common/Array2D.hpp: flipVert, flipHorz, transpose"]}
{"id": "C35", "title": "Expanding and resizing keep data in place", "statement": "expand keeps the old raster in the upper-left corner and fills the rest; resize gives a raster of the requested size filled with the value and neighbour shifts for the new width.", "quantifier": "all sizes", "why_tests_cant": "Every shape.", "anchors": ["include/richdem/common/Array2D.hpp: expand, resize"]}
{"id": "C36", "title": "Row, column, edge and counting helpers touch/return exactly the named cells", "statement": "setRow/setCol/setEdges change exactly the named cells; getRowData/getColData return them in order; countval/numDataCells count them.", "quantifier": "all rasters", "why_tests_cant": "Every shape and content, and caching histories.", "anchors": ["include/richdem/common/Array2D.hpp: setRow,setCol,setEdges,getRowData,getColData,countval,countDataCells,numDataCells"]}
{"id": "C37", "title": "Native cache save/load is lossless", "statement": "Loading a file written by saveToCache restores dimensions, offsets, NoData, geotransform, projection and every cell.", "quantifier": "all rasters", "why_tests_cant": "All sizes and contents.", "anchors": ["include/richdem/common/Array2D.hpp: saveToCache, loadNative"]}
{"id": "C38", "title": "A truncated native file is detected", "statement": "If the process crashes while writing the native cache, a later load reports an error instead of yielding a raster with wrong contents.", "quantifier": "all crash points (all strict prefixes of the file)", "why_tests_cant": "Crash points are unbounded.", "anchors": ["include/richdem/common/Array2D.hpp: saveToCache, loadNative"]}
{"id": "C39", "title": "Tile layout files round-trip", "statement": "A layout written row by row with LayoutfileWriter is read back by LayoutfileReader as the same grid of names, in row-major order with correct coordinates and null-tile flags.", "quantifier": "all grids of file names", "why_tests_cant": "All shapes and null patterns.", "anchors": ["include/richdem/common/Layoutfile.hpp"]}
{"id": "C40", "title": "Tile base names drop only the directory and the extension", "statement": "GetBaseName returns the file's name without directory and extension.", "quantifier": "all path strings", "why_tests_cant": "All strings.", "anchors": ["include/richdem/common/Layoutfile.hpp: GetBaseName"]}
{"id": "C41", "title": "A tiled raster behaves like one big raster whatever is evicted", "statement": "Reading a cell of A2Array2D returns the last value written to it, for every cache size and access sequence, and at most the allowed number of tiles is resident.", "quantifier": "all access sequences, cache sizes and tilings", "why_tests_cant": "All histories.", "anchors": ["include/richdem/tiled/A2Array2D.hpp", "include/richdem/tiled/lru.hpp"]}
{"id": "C42", "title": "Bucket fill marks exactly the connected region", "statement": "BucketFill(FromEdges) sets to the set value exactly the cells equal to the check value that are connected through such cells to a seed, and leaves all others unchanged.", "quantifier": "all rasters and seeds, both topologies", "why_tests_cant": "Connectivity over arbitrary shapes.", "anchors": ["include/richdem/misc/misc_methods.hpp: BucketFill, BucketFillFromEdges"]}
{"id": "C43", "title": "Depression volumes and counts aggregate the hierarchy", "statement": "CalculateTotalVolumes gives each (meta)depression the total cell count and elevation of all leaf depressions under it, and its volume is cell_count*outlet_elevation - total_elevation.", "quantifier": "all hierarchies", "why_tests_cant": "Trees of any depth.", "anchors": ["include/richdem/depressions/depression_hierarchy.hpp: CalculateTotalVolumes, CalculateMarginalVolumes"]}
{"id": "C44", "title": "Fill-Spill-Merge conserves water", "statement": "Moving water through the depression hierarchy neither creates nor destroys water: the total over depressions and ocean is unchanged by every overflow, and no depression retains more than its volume unless it is the ocean.", "quantifier": "all hierarchies and water distributions", "why_tests_cant": "Trees of any depth and real-valued water.", "anchors": ["include/richdem/depressions/fill_spill_merge.hpp: MoveWaterInDepHier, OverflowInto"]}
{"id": "C45", "title": "The lake-level equation stores exactly the given volume", "statement": "The level computed by DetermineWaterLevel from a set of flooded cells and a volume makes the water stored above those cells (plus what the next cell's ground takes up) equal that volume, exactly or within the tolerance of the floating-point comparisons per cell, and lies between the highest flooded cell and the next.", "quantifier": "all sets of elevations and volumes", "why_tests_cant": "Continuum of values.", "anchors": ["include/richdem/depressions/fill_spill_merge.hpp: DetermineWaterLevel, BackfillDepression, DepressionVolume"]}
{"id": "C46", "title": "Breaching only lowers (after pit raising) and leaves every cell drained", "statement": "CompleteBreaching_Lindsay2016 (either topology) terminates and yields a raster in which every data cell has a never-ascending path through data cells to the perimeter or to a NoData cell. No cell ends higher than it was, except cells lower than all their neighbours, which end no higher than any neighbour was; NoData cells are unchanged.", "quantifier": "all rasters, all tie orders", "why_tests_cant": "All terrains.", "anchors": ["include/richdem/depressions/Lindsay2016.hpp"]}
{"id": "C47", "title": "Perimeter counting follows its definition", "statement": "Perimeter(CELL_COUNT) counts each data cell that touches the raster edge or NoData once; SQUARE_EDGE counts exposed cell sides.", "quantifier": "all rasters", "why_tests_cant": "All shapes.", "anchors": ["include/richdem/misc/misc_methods.hpp: Perimeter"]}
{"id": "C48", "title": "Terrain attributes use only valid neighbours and vanish on planes/flat ground as they should", "statement": "A neighbour that is off-grid or NoData is replaced by the centre value; on locally constant terrain slope and curvature are zero; slope is never negative; adding a constant to the DEM changes no slope or curvature.", "quantifier": "all 3x3 neighbourhoods", "why_tests_cant": "Continuum of values.", "anchors": ["include/richdem/methods/terrain_attributes.hpp: TerrainSetup, Terrain_Slope_RiseRun, Terrain_Curvature"]}
{"id": "C49", "title": "Tiled parallel filling equals sequential filling", "statement": "Flooding tiles separately, solving the graph of tile-edge spill elevations globally and raising each tile's labels accordingly yields the same raster as filling the whole DEM at once.", "quantifier": "all tilings, all tile schedules, all DEMs", "why_tests_cant": "Distribution and schedule.", "anchors": ["programs/parallel_priority_flood/main.cpp"]}
{"id": "C50", "title": "Tolerant comparisons behave as documented", "statement": "fp_eq/fp_le/fp_ge accept values within 1e-6 and are consistent with each other; fp_eq is reflexive and symmetric (not transitive).", "quantifier": "all numbers", "why_tests_cant": "Continuum.", "anchors": ["include/richdem/common/math.hpp"]}
{"id": "C51", "title": "NoData cells stay NoData under filling", "statement": "Cells holding the NoData value before PriorityFlood_Original / PriorityFlood_Barnes2014 hold it afterwards (postcondition 1 in the documentation). The code violates this for NoData cells enclosed by data; what holds is that a NoData cell is kept exactly when it reaches the perimeter through cells not above NoData.", "quantifier": "all rasters, NoData placements, topologies and heap tie orders", "why_tests_cant": "Test rasters have NoData only on the outside; enclosed NoData patterns are unbounded in shape.", "anchors": ["include/richdem/depressions/Barnes2014.hpp: PriorityFlood_Original, PriorityFlood_Barnes2014"]}
{"id": "C52", "title": "D8 accumulation is independent of the thread schedule", "statement": "The dependency matrix counted in parallel by d8_flow_accum, and hence the area raster, is the same for every number of threads and every interleaving.", "quantifier": "all direction grids, all thread schedules", "why_tests_cant": "A lost update needs a particular interleaving of two threads; a test run almost never hits it.", "anchors": ["include/richdem/methods/d8_methods.hpp: d8_flow_accum"]}
{"id": "C53", "title": "D8 flat resolution drains every drainable flat", "statement": "barnes_flat_resolution_d8 (alter=false) changes only cells that had no flow direction; a directionless cell gets a direction exactly when its flat can drain; each assigned direction stays inside the flat and steps strictly down the flat mask; the resulting direction raster has no cycles through flat cells, every path from a drainable flat cell leaves the flat, and on a depression-free DEM every interior data cell ends up with a direction.", "quantifier": "all rasters, direction rasters and orders of the edge queues", "why_tests_cant": "Flats have unbounded shape and the order of edge queues is unspecified; acyclicity is a property of all paths.", "anchors": ["include/richdem/flats/flat_resolution.hpp: barnes_flat_resolution_d8, d8_masked_FlowDir, d8_flow_flats"]}
{"id": "C54", "title": "Fill, route, resolve, accumulate: the standard pipeline conserves water", "statement": "Filling a DEM (PriorityFlood_Barnes2014), resolving its flats (barnes_flat_resolution_d8) and accumulating flow (d8_flow_accum) gives a direction raster in which every data cell's path leaves the data region, and an area raster in which each data cell's value is the number of data cells upstream of it; the areas at the exits add up to the number of data cells.", "quantifier": "all rasters with at least one cell, all NoData placements, heap tie orders and queue orders", "why_tests_cant": "The end-to-end claim composes four algorithms over every raster.", "anchors": ["include/richdem/depressions/Barnes2014.hpp", "include/richdem/methods/d8_methods.hpp: d8_flow_directions, d8_flow_accum", "include/richdem/flats/flat_resolution.hpp"]}
{"id": "C55", "title": "Surface area is at least planar area", "statement": "dem_surface_area never throws, is at least the planar area of the data cells, equals it for level terrain, and is unchanged by adding a constant to every elevation.", "quantifier": "all rasters of real elevations and all cell sizes", "why_tests_cant": "An inequality over all real surfaces; tests only compare a few rasters.", "anchors": ["include/richdem/misc/misc_methods.hpp: dem_surface_area"]}
{"id": "C56", "title": "Rho8/Rho4 send flow to one lower neighbour", "statement": "FM_Rho8 and FM_Rho4 give each interior data cell exactly one receiving neighbour, strictly lower and not NoData, with proportion 1, whenever such a neighbour exists, and none otherwise, whatever the random numbers drawn.", "quantifier": "all rasters, all outcomes of the random number generator, both topologies", "why_tests_cant": "The outcome depends on random draws; a test sees one seed. The zero draw that breaks Rho4 has probability about 2^-53.", "anchors": ["include/richdem/flowmet/Fairfield1991.hpp: FM_FairfieldLeymarie, FM_Rho8, FM_Rho4"]}
{"id": "C57", "title": "Accumulation over any downhill metric is exact and conserves flow", "statement": "For every flow metric of the library (D8, Rho8, Freeman, Holmgren, Quinn, D-infinity) FlowAccumulation gives every data cell its own input plus the shares of the cells that flow into it, and the total input equals the total accumulated at the cells that pass nothing on plus what leaves into NoData.", "quantifier": "all rasters, exponents, random draws, inputs and queue orders", "why_tests_cant": "Acyclicity of the flow graph is a property of all rasters; conservation is a global sum.", "anchors": ["include/richdem/methods/flow_accumulation_generic.hpp: FlowAccumulation", "include/richdem/flowmet/*.hpp"]}
{"id": "C58", "title": "D-infinity upslope area is exact", "statement": "For directions computed by dinf_flow_directions, dinf_upslope_area terminates, gives NoData cells -1 and gives every data cell one plus the shares of the areas of the cells that flow into it; the flow graph is acyclic. The code violates this for cells that flow due east (angle 0 is also NO_FLOW): their own area and everything they should pass on is lost.", "quantifier": "all rasters, NoData placements and queue orders", "why_tests_cant": "Exactness is a fixpoint over all paths; the lost cells need a slope that is exactly due east.", "anchors": ["include/richdem/methods/dinf_methods.hpp: dinf_upslope_area, where_do_i_flow, area_proportion", "include/richdem/flowmet/dinf_flowdirs.hpp: dinf_FlowDir, dinf_flow_directions"]}
{"id": "C59", "title": "The depression hierarchy labels every cell and its flow directions end in the label's pit", "statement": "GetDepressionHierarchy throws exactly when a label other than OCEAN/NO_DEP is given or no ocean cell touches land; otherwise every cell gets a label, ocean cells keep OCEAN, and following the returned flow directions keeps the label, never climbs and ends after finitely many steps in the unique pit of that depression (a land cell without lower neighbours) or in an ocean cell.", "quantifier": "all rasters, ocean masks, topologies and tie orders of the queue", "why_tests_cant": "All terrains and all orders in which equal cells leave the queue.", "anchors": ["include/richdem/depressions/depression_hierarchy.hpp: GetDepressionHierarchy (flood phase)"]}
{"id": "C60", "title": "The outlet table holds exactly the lowest passes between depressions", "statement": "For every two labels a link exists iff the two regions touch, and its elevation is the minimum over adjacent cells of the two regions of the higher of the two cells, attained at the recorded outlet cell.", "quantifier": "all rasters, ocean masks, topologies and tie orders", "why_tests_cant": "Minimality over all cell pairs for all terrains.", "anchors": ["include/richdem/depressions/depression_hierarchy.hpp: OutletLink, Outlet, outlet_database"]}
{"id": "C61", "title": "The depression hierarchy is a binary forest rooted in the ocean", "statement": "Construction never fails an assertion, creates fewer than twice as many depressions as labels; leaves are the cell labels; each metadepression has two distinct children with smaller labels whose parent it is and which spill into each other; every depression but the ocean has a parent, either its metadepression or the depression through which it reaches the ocean, which lists it.", "quantifier": "all rasters, ocean masks and orders of equal outlets", "why_tests_cant": "Trees of any depth; all orders of equal outlets.", "anchors": ["include/richdem/depressions/depression_hierarchy.hpp: GetDepressionHierarchy (hierarchy construction)"]}
{"id": "C62", "title": "Spill elevations are the lowest passes out of each (meta)depression", "statement": "out_elev of every non-ocean depression is the minimum over adjacent cells, one inside it and one outside, of the higher of the two; it is the elevation of out_cell, and never decreases from child to parent.", "quantifier": "all rasters, ocean masks and orders of equal outlets", "why_tests_cant": "Minimality over cuts of all terrains.", "anchors": ["include/richdem/depressions/depression_hierarchy.hpp: GetDepressionHierarchy (hierarchy construction)"]}
{"id": "C63", "title": "The hierarchy determines the level at which water reaches the ocean", "statement": "The minimum over paths from a cell to an ocean cell of the highest elevation met equals the cell's elevation if its label is OCEAN and otherwise the larger of its elevation and the spill elevation of the topmost (meta)depression containing it.", "quantifier": "all rasters, cells, ocean masks and orders of equal outlets", "why_tests_cant": "A minimax over all paths.", "anchors": ["include/richdem/depressions/depression_hierarchy.hpp: GetDepressionHierarchy"]}
{"id": "C64", "title": "SPI and CTI follow their formulas and mark only NoData cells", "statement": "TA_SPI and TA_CTI give, for every cell where both inputs have data, the logarithm of specific catchment area times (or divided by) slope+0.001, and the NoData value -1 exactly where an input is NoData.", "quantifier": "all pairs of rasters", "why_tests_cant": "Continuum of values; the clash with the NoData value is a measure-zero set.", "anchors": ["include/richdem/methods/terrain_attributes.hpp: TA_SPI, TA_CTI"]}
{"id": "C65", "title": "Spreading a depression's water makes one flat lake and loses none", "statement": "Filling a depression with a volume of water leaves a lake of depression cells not above the outlet with a flat surface, changes at most one other cell (whose water table stays at or below ground), and raises the total water over the raster by the given volume within the comparison tolerance per cell; whenever the depression has room for the water the call returns without a failed assertion or exception.", "quantifier": "all terrains, labels, depressions, volumes and water tables", "why_tests_cant": "Continuum of values and unbounded grids; a flood crossing saddles.", "anchors": ["include/richdem/depressions/fill_spill_merge.hpp: FillDepressions, DetermineWaterLevel, BackfillDepression"]}
{"id": "C66", "title": "Breach-then-fill leaves every cell drained", "statement": "Lindsay2016 in selective or constrained mode with fill_depressions=true terminates and yields a raster in which every data cell has a never-ascending path to the perimeter or to NoData; with eps_gradients every such step descends strictly.", "quantifier": "all rasters, all path-length and depth limits, all tie orders", "why_tests_cant": "The failure needs the last pit to leave the queue before some other cell of a depression is visited; only a search over all terrains (or a proof) settles it.", "anchors": ["include/richdem/depressions/Lindsay2016.hpp"]}
{"id": "C67", "title": "Flooded tiles kept between the rounds come back unchanged", "statement": "In the parallel Priority-Flood, whichever retention strategy is chosen (@retain or a directory), the second round works on exactly the elevations and labels the first round produced for the tile.", "quantifier": "all tiles, all rasters, all interleavings with other tiles, all previous contents of the disk", "why_tests_cant": "Needs every history of saves and loads.", "anchors": ["programs/parallel_priority_flood/main.cpp"]}
{"id": "C68", "title": "Tiles beside missing tiles drain into them", "statement": "In <many> mode a tile treats a side as outside of the DEM exactly when it lies on the edge of the tile grid or faces a missing tile.", "quantifier": "all grids and patterns of missing tiles", "why_tests_cant": "Every pattern of missing tiles at every position.", "anchors": ["programs/parallel_priority_flood/main.cpp"]}
{"id": "C69", "title": "The suggested block size is the nearest usable one", "statement": "When a block size would leave too small a last tile, the size suggested by the program leaves a last tile of more than 100 cells and no usable size is nearer to the requested one.", "quantifier": "all raster sizes and requested block sizes", "why_tests_cant": "Unbounded sizes.", "anchors": ["programs/parallel_priority_flood/main.cpp"]}
{"id": "C70", "title": "Fill-Spill-Merge runs all standing water to the pits", "statement": "The first stage of FillSpillMerge (MoveWaterIntoPits) neither creates nor destroys water: for every depression label and for the ocean, the water tables of its cells plus the water booked on it are unchanged. It terminates. Afterwards no cell has standing water and water tables below ground have only risen; each cell keeps exactly its remaining deficit and each depression is credited exactly with the surplus arriving at its pit (on saturated ground: all the water that stood on its cells). This fails for the cell (0,0) and everything downstream of it if some cell flows into (0,0), because address 0 is mistaken for NO_FLOW.", "quantifier": "every raster, every depression hierarchy flood (any order of equal elevations), every water table, every service order of the queue", "why_tests_cant": "the amount booked depends on the whole flow network; the address-0 case needs a raster whose first cell receives flow", "anchors": ["include/richdem/depressions/fill_spill_merge.hpp:MoveWaterIntoPits"]}
{"id": "C71", "title": "Fill-Spill-Merge conserves water and leaves it standing still in depressions", "statement": "FillSpillMerge, run on a DEM with its depression hierarchy and a water table that is nowhere below ground, returns without a failed assertion or exception. Water is neither made nor lost: what stands on the raster afterwards plus what went into the ocean is what stood there before, up to the documented tolerance. Water stands only in depressions and not above their spill elevation, no water table is below ground, and the water stands still: no water surface is above the surface of a neighbour (up to the tolerance), and neighbouring wet cells are level.", "quantifier": "every raster, ocean mask, depression hierarchy, amount and distribution of water, service order of the queues", "why_tests_cant": "amounts, terrains and nesting of depressions are unbounded; overflow cascades through arbitrarily deep hierarchies", "anchors": ["include/richdem/depressions/fill_spill_merge.hpp: FillSpillMerge, MoveWaterIntoPits, MoveWaterInDepHier, FindDepressionsToFill, FillDepressions"]}
{"id": "C72", "title": "Equal elevations leave the queue of GetDepressionHierarchy last in, first out", "statement": "pair_radix_heap answers every sequence of emplace/top/pop calls as a stack would from which the least key is taken, and of equal keys the one added last; it fails exactly when a key below the last one returned is pushed or an empty heap is popped. GetDepressionHierarchy never does either.", "quantifier": "every sequence of calls; every raster and ocean mask", "why_tests_cant": "every history of calls", "anchors": ["include/richdem/common/radix_heap.hpp: pair_radix_heap", "include/richdem/depressions/depression_hierarchy.hpp: GetDepressionHierarchy"]}
{"id": "C73", "title": "A flat without lower neighbours belongs to a single depression", "statement": "GetDepressionHierarchy gives all cells of a flat without lower neighbours the same label, and every depression that lies within another one has a positive volume.", "quantifier": "every raster and ocean mask, every shape of flat", "why_tests_cant": "depends on the order in which equal elevations are visited, for every shape of flat", "anchors": ["include/richdem/depressions/depression_hierarchy.hpp: GetDepressionHierarchy (comment above PriorityQueue)"]}
{"id": "C74", "title": "Tiled flow accumulation equals flow accumulation of the whole raster", "statement": "parallel_d8_accum writes tiles in which every cell holds the flow accumulation that d8_flow_accum gives it on the undivided raster: the number of data cells whose flow passes through it. This holds for every division into tiles, with tiles stored mirrored and tiles without data left out, whatever the order in which workers deliver their results. Directions that run in a circle make it throw.", "quantifier": "every raster of flow directions, tile size, set of missing or mirrored tiles, arrival order of messages, service order of the producer's stack", "why_tests_cant": "rasters, tilings and message schedules are unbounded", "anchors": ["programs/parallel_d8_accum/main.cpp: FollowPath, FollowPathAdd, FlowAccumulation, FirstRound, SecondRound, DownstreamCell, Calculations, Producer, Consumer"]}
{"id": "C75", "title": "Perimeter cells of a tile are numbered without gaps or repetitions", "statement": "xyToSerial and serialToXY are inverse to each other between the perimeter cells of a tile and the numbers 0 to 2*width+2*height-5, GridPerimToArray lists the values of the perimeter cells by that number, and the numbers fit the type they are sent in.", "quantifier": "every tile size, every perimeter cell, every number", "why_tests_cant": "tile sizes are unbounded", "anchors": ["programs/parallel_d8_accum/perimeters.hpp: xyToSerial, serialToXY, GridPerimToArray"]}
{"id": "C76", "title": "The tiled programs finish under every schedule and write the right files", "statement": "However the producer, the consumers and their messages are scheduled, the tiled programs never fail, never wait for ever and end after a bounded number of steps, with the result of every tile received exactly once, all processes stopped and one correct file written for every tile; with the tiled Priority-Flood the files hold the filled raster, with the tiled flow accumulation the accumulation of the whole raster.", "quantifier": "every number of consumers and tiles, every interleaving of process steps and message deliveries", "why_tests_cant": "the number of interleavings is exponential and message timing cannot be controlled in a test", "anchors": ["include/richdem/common/communication.hpp: CommSend, CommISend, CommRecv, CommGetTag", "programs/parallel_priority_flood/main.cpp: Producer, Consumer", "programs/parallel_d8_accum/main.cpp: Producer, Consumer"]}
{"id": "C77", "title": "Tiled greedy flat resolution: directions complete, downhill and free of loops", "statement": "The flow directions written by the tiled flat resolution give NoData cells 255; a data cell gets a direction exactly if a cell with a lower, NoData or missing neighbour can be reached from it over cells of equal elevation; flow never goes uphill and forms no loops, so on a raster without depressions it leaves the raster from every data cell; edge cells point out of the raster; cells without an equal neighbour point at NoData or the lowest neighbour; the loop warnings are never printed.", "quantifier": "every raster, tiling and set of empty tiles", "why_tests_cant": "rasters and tilings are unbounded; loops depend on the shape of flats across tiles", "anchors": ["programs/tiled_flat_resolution/main.cpp: Master, ProcessFlat, d8EdgeFlow"]}
{"id": "C78", "title": "Garbrecht flat resolution: increments are distances, but flats can stay unresolved and the loops can run for ever", "statement": "Garbrecht and Martz' flat resolution, called after the D8 directions, raises only the data cells off the edge without a lower neighbour: by the increment times the sum of their distance over level cells to the nearest draining cell and of a number that falls by one per step away from higher terrain, so that every flat cell of a raster without depressions gets a flow direction.", "quantifier": "all rasters, sizes, NoData values and positive increments; all flats", "why_tests_cant": "The number of rounds and the shape of a flat are unbounded, cells are updated in place, and failure depends on how two distance fields interact.", "anchors": ["include/richdem/flats/garbrecht.hpp: FindFlats, GradientTowardsLower, GradientAwayFromHigher, CombineGradients, GarbrechtAlg", "include/richdem/flats/main.cpp"]}
{"id": "C79", "title": "LastLayer marks exactly the cells under water when all depressions are full", "statement": "Called with the labels and depressions of a depression hierarchy, LastLayer ends without an exception for every cell and relabels it: 0 if water can get from the cell to the ocean without ever rising above the cell's elevation, 2^32-3 otherwise.", "quantifier": "all rasters, ocean masks, neighbourhoods, orders of equal outlets and cells", "why_tests_cant": "The walk up the hierarchy crosses ocean links into other trees; that no spill elevation there exceeds the cell rests on the order in which outlets of any raster were joined.", "anchors": ["include/richdem/depressions/depression_hierarchy.hpp: LastLayer, GetDepressionHierarchy"]}
{"id": "C80", "title": "TauDEM directions are converted to the same neighbours", "statement": "rd_taudem_d8_to_richdem_d8 succeeds exactly when every data cell holds a code 0..8; it then writes for each data cell the RichDEM code of the same neighbour (0 stays 0), leaves NoData cells alone, keeps data cells data cells, and applied twice gives the raster back.", "quantifier": "all rasters, sizes and NoData values outside 0..8", "why_tests_cant": "All rasters and all positions of invalid codes; the conversion is in place, so a NoData value that is also a code silently loses cells.", "anchors": ["apps/rd_taudem_d8_to_richdem_d8.cpp: PerformAlgorithm", "include/richdem/common/constants.hpp: d8x, d8y"]}
{"id": "C81", "title": "rd_loop_check reports exactly the cells whose flow runs into a loop", "statement": "For a raster of D8 directions, rd_loop_check prints a report for a cell exactly when following the directions from that cell never ends.", "quantifier": "all rasters of codes 0..8 or NoData, all sizes, all starting cells", "why_tests_cant": "Loops of any length and paths of any length are possible; the bound used depends on the raster's width only.", "anchors": ["apps/rd_loop_check.cpp: FollowPath"]}
{"id": "C82", "title": "rd_flood_for_flowdirs writes directions that drain the filled raster", "statement": "The direction raster saved by rd_flood_for_flowdirs leads every data cell of the filled DEM out of the data region without loops, whatever the orientation of the raster.", "quantifier": "all rasters, sizes, elevations, NoData values, heap tie orders and geotransform signs", "why_tests_cant": "Combines filling, flat resolution and flips; all terrains and sizes.", "anchors": ["apps/rd_flood_for_flowdirs.cpp: PerformAlgorithm", "include/richdem/common/Array2D.hpp: flipVert", "include/richdem/flats/flat_resolution.hpp: barnes_flat_resolution_d8"]}
{"id": "C83", "title": "The raster of flow proportions stores nine independent numbers per cell", "statement": "An Array3D addresses slot n (0..8) of cell (x,y) by coordinates and by flat cell index consistently; distinct slots never share storage, every access inside the dimensions stays inside the storage, reads return the last value written; a cell is NoData exactly when its slot 0 is; numDataCells is the number of cells that are not NoData; == compares dimensions, NoData value and data.", "quantifier": "all sizes, element types, cells, slots, sequences of writes", "why_tests_cant": "Aliasing and bounds must hold for all sizes and all pairs of slots; uninitialised reads and overruns often go unnoticed at run time.", "anchors": ["include/richdem/common/Array3D.hpp: Array3D, xyToI, operator(), getIN, isNoData, countDataCells, numDataCells, operator=="]}
{"id": "C84", "title": "Generated Perlin terrain is defined everywhere, bounded, periodic and without seams", "statement": "For every seed, generate_perlin_terrain accepts exactly square rasters and gives every cell a height between 0 and 1; the underlying noise never reads outside its table, is 1/2 at integer points, repeats every 256 units, and is continuous.", "quantifier": "all permutation tables, all real points, all raster sizes", "why_tests_cant": "All seeds and all points of space; index bounds, seams between unit cubes and extreme values need particular tables.", "anchors": ["src/terrain_generation/PerlinNoise.cpp: PerlinNoise::noise, fade, lerp, grad", "src/terrain_generation/terrain_generation.cpp: generate_perlin_terrain"]}
{"id": "C85", "title": "D-infinity flat resolution drains every flat that has an outlet", "statement": "resolve_flats_barnes_dinf leaves NoData cells and cells that have a downhill angle as they are; gives every cell of a flat with an outlet an angle between 0 and 2π whose receivers are cells of that flat; leaves the cells of flats without an outlet at NO_FLOW; and the resulting flow has no cycles, so it leaves every flat that has an outlet.", "quantifier": "all raster sizes, elevations (reals), NoData values, cells and flow paths", "why_tests_cant": "Flats have unboundedly many shapes; the absence of cycles and of receivers outside the flat concerns every cell of every flat, and due-east cells, whose angle equals NO_FLOW, are easily missed.", "anchors": ["include/richdem/flats/flat_resolution_dinf.hpp: dinf_masked_FlowDir, dinf_flow_flats, resolve_flats_barnes_dinf", "include/richdem/flowmet/dinf_flowdirs.hpp: dinf_flow_directions", "include/richdem/flats/flat_resolution.hpp: resolve_flats_barnes"]}
{"id": "C86", "title": "Windows and georeferencing of rasters read and written through GDAL", "statement": "Loading a window of a GDAL raster gives exactly the cells of the file inside the window, with the file's NoData value, projection and geotransform; a window outside the file is refused; a raster that is saved and loaded again is the same raster; a tile saved with its offsets keeps the world coordinates of its cells; loading with a padding frames the data, and saving with the same padding strips the frame.", "quantifier": "all files, windows, offsets, paddings, geotransforms and cells", "why_tests_cant": "Clamping at the edges, offset/size zero conventions and affine shifts have to be right for every combination of offset, size and geotransform, including rotated ones.", "anchors": ["include/richdem/common/Array2D.hpp: loadGDAL, loadData, saveGDAL", "include/richdem/common/loaders.hpp: LoadGDAL, SaveGDAL"]}
{"id": "C87", "title": "Metadata and the processing history survive loading and saving", "statement": "Loading a raster reads all its metadata; every save adds one line with time, program and operation to the processing history and keeps everything else, so that after any chain of programs the history lists all operations in order.", "quantifier": "all metadata lists, all sequences of saves, all chains of load and save", "why_tests_cant": "The history is a property of sequences of program runs of any length over any metadata.", "anchors": ["include/richdem/common/Array2D.hpp: ProcessMetadata, saveGDAL", "include/richdem/common/loaders.hpp: SaveGDAL"]}
{"id": "C88", "title": "A tiled raster saved as one file holds what the raster holds", "statement": "saveUnifiedGDAL writes a file of the whole raster's size which holds at each cell what the raster returns there (NoData on null tiles), whatever was read, written and evicted before, and leaves the raster as it is; setNoData and null tiles do not prevent saving; saving tile by tile works.", "quantifier": "all tile sizes and layouts, cache sizes, sequences of accesses before and after the save, cells", "why_tests_cant": "Saving walks all tiles through the same bounded cache that earlier accesses left in any of unboundedly many states.", "anchors": ["include/richdem/tiled/A2Array2D.hpp: saveUnifiedGDAL, saveGDAL, setNoData, _LoadTile"]}
{"id": "C89", "title": "The rd_fill_spill_merge tool, end to end", "statement": "rd_fill_spill_merge treats as ocean exactly the NoData cells and the cells at the given ocean level that are joined to the raster edge by such cells; it ends with an exception exactly when no ocean cell has a land neighbour. Otherwise it saves two rasters: a water depth that is nowhere negative, zero on the ocean, never higher than some cell of every path to the ocean, level and at rest, and that together with the water gone into the ocean makes up the water put on land; and a hydrologic surface equal to ground plus water. NoData cells stay NoData and let water out.", "quantifier": "every topography, NoData value, ocean level and water raster of every size below 2^31 cells, every order in which pending cells, equal-priority cells (served last in, first out, as the radix heap does), equal outlets and threads are taken", "why_tests_cant": "the outcome depends on the whole terrain through five stages; a test sees one terrain and one schedule", "anchors": ["apps/rd_fill_spill_merge.cpp main", "include/richdem/misc/misc_methods.hpp BucketFillFromEdges", "include/richdem/depressions/depression_hierarchy.hpp GetDepressionHierarchy", "include/richdem/depressions/fill_spill_merge.hpp FillSpillMerge"]}
{"id": "C90", "title": "Names and directories of layout files", "statement": "The full path of a layout entry is the directory of the layout file followed by the entry name; a LayoutfileWriter for dir/name.ext writes dir/name.layout in the directory asked for; entries at different grid positions have different location names.", "quantifier": "all directory names, file names, extensions and grid positions", "why_tests_cant": "names are unbounded strings; whether a period or slash is found in the right component depends on every combination of both", "anchors": ["include/richdem/common/Layoutfile.hpp LayoutfileReader::getFullPath, getGridLocName, LayoutfileWriter"]}
{"id": "C91", "title": "Calls from Python: in_place, memory and metadata", "statement": "FillDepressions, BreachDepressions and ResolveFlats called from Python with in_place=False leave the caller's array (cells and attributes) and all other memory unchanged and return a new array holding the result for the array's cells, whatever its strides; with in_place=True they store the result in the array itself and change nothing else. FlowAccumulation changes the weights only with in_place=True. An unsupported type or topology raises without touching any cell. The returned no_data is the array's no_data, and NoData cells are recognised.", "quantifier": "every array (shape, strides, offset, element type), every content of memory, every no_data value, every C++ function called", "why_tests_cant": "tests use freshly made contiguous arrays; memory reached through a freed copy often still holds the old values", "anchors": ["wrappers/pyrichdem/richdem/__init__.py rdarray, wrap, FillDepressions, BreachDepressions, ResolveFlats, FlowAccumulation, FlowProportions", "wrappers/pyrichdem/src/pywrapper.hpp TemplatedArrayWrapper"]}
{"id": "C92", "title": "Python: depression hierarchy and a simulation of rain", "statement": "get_new_depression_hierarchy_labels marks exactly the border as OCEAN. get_depression_hierarchy raises exactly when a label is neither OCEAN nor NO_DEP or no ocean cell has a land neighbour; otherwise it stores labels in place, leaves the DEM alone, and its flow directions lead to a neighbour of the same label that is not higher, pits excepted. In a program that then alternates rain and fill_spill_merge, whatever the rain, no call fails; after each call the DEM, labels and flow directions are unchanged, the water is nowhere negative, level and at rest, nowhere above its spill point, the ocean is dry and water is conserved up to the tolerance.", "quantifier": "every DEM and labelling, every starting water and every finite sequence of rain fields, every order of equal elevations and of the outlets", "why_tests_cant": "a simulation is an unbounded sequence of calls on state left by the previous ones; tests check the result of a few steps", "anchors": ["wrappers/pyrichdem/richdem/__init__.py get_depression_hierarchy, get_new_depression_hierarchy_labels, fill_spill_merge", "wrappers/pyrichdem/src/pywrapper.cpp", "wrappers/pyrichdem/examples/fill_spill_merge.py"]}
{"id": "C93", "title": "Limited breaching keeps to its limits", "statement": "Lindsay breaching in selective mode treats one pit after the other: the path along the back-links is dug exactly if it has at most maxpathlen cells and none of them has to be lowered by more than maxdepth, otherwise the terrain is left as it is; nothing else is changed. With maxpathlen 0 nothing is dug at all; with limits that exclude no path both limited modes give the result of complete breaching. No cell ends up lowered by more than maxdepth, and constrained breaching keeps to the limits as well.", "quantifier": "every DEM, NoData mask, limits, and order of equal elevations in the queue", "why_tests_cant": "the limits bind on particular paths that depend on the whole terrain and on the cuts made before; tests see a few paths", "anchors": ["include/richdem/depressions/Lindsay2016.hpp Lindsay2016 (304-358)"]}
{"id": "C94", "title": "Queries of the disjoint sets are short", "statement": "A query for one of the n elements of a DisjointDenseIntSet answers within 1 + log2(n) nested calls after any history without mergeAintoB; every mergeAintoB of two representatives adds at most one call, and histories exist where all of them do. After a query, a query for any element on its chain of parents answers within two calls.", "quantifier": "every number of elements and every history of makeSet, unionSet, findSet, sameSet and mergeAintoB", "why_tests_cant": "the bound is over all histories; a test of a few unions sees shallow trees whether or not the ranks are kept correctly", "anchors": ["include/richdem/common/disjoint_dense_int_set.hpp findSet, unionSet, mergeAintoB"]}
{"id": "C95", "title": "A read-only tiled raster shows its files", "statement": "Opening a layout succeeds exactly if all its files have the same size. For every cache size other than 0, every sequence of reads and NoData queries gets the answers of the files: the cell of the tile, the tile turned upside down when its rows run upwards or when flipV is set (but not both), the NoData value on blanks; never more tiles than the cache size are in memory. Files whose columns run leftwards are mirrored. What is assigned is read back.", "quantifier": "every layout, tile size, cache size, flip setting and sequence of accesses", "why_tests_cant": "eviction depends on the whole history of accesses; a wrong reload shows only after particular sequences", "anchors": ["include/richdem/tiled/A2Array2D.hpp A2Array2D(layoutfile,cachesize), _LoadTile, operator(), isNoData"]}
{"id": "C96", "title": "Merging a layout into one raster", "statement": "rd_merge_rasters_by_layout writes one raster of the size of the whole in which every cell of every file is found at the same place on the ground with the same value, and NoData on blanks, whatever the cache size.", "quantifier": "every layout, tile size, cache size and flip setting", "why_tests_cant": "the arrangement, the blanks and the orientation of the files vary without bound; tests use a few small layouts", "anchors": ["apps/rd_merge_rasters_by_layout.cpp Master", "include/richdem/tiled/A2Array2D.hpp saveUnifiedGDAL"]}
{"id": "C97", "title": "Comparing two rasters", "statement": "rd_compare reports exactly the number of cells whose values differ, and whether geotransforms, NoData values, projections, widths and heights differ; it reports no difference exactly if there is none, whatever the order of the two files and their cell types.", "quantifier": "every pair of files, sizes, cell values and integer cell types", "why_tests_cant": "sizes, contents and the pair of types vary without bound; comparisons across types are wrong only for some values", "anchors": ["apps/rd_compare.cpp PerformAlgorithm", "apps/router.hpp PerformAlgorithm"]}
{"id": "C98", "title": "Tools that edit one raster", "statement": "rd_expand_dimensions keeps every cell and fills the rest with NoData; rd_no_data, rd_geotransform and rd_projection change exactly the NoData value, the coefficients or the projection asked for and keep all cells; rd_processing_history shows the recorded history; failures are signalled by the exit status.", "quantifier": "every raster, size, text of a number, coefficient list and projection", "why_tests_cant": "rasters, sizes and argument texts vary without bound", "anchors": ["apps/rd_expand_dimensions.cpp PerformAlgorithm, main", "apps/rd_no_data.cpp PerformAlgorithm", "apps/rd_geotransform.cpp PerformAlgorithm", "apps/rd_projection.cpp PerformAlgorithm", "apps/rd_processing_history.cpp main"]}
{"id": "C99", "title": "Histogram of a raster", "statement": "rd_hist prints exactly one line for every value that occurs, with the number of cells that have it; the numbers add up to the number of cells.", "quantifier": "every raster without NaN", "why_tests_cant": "contents vary without bound", "anchors": ["apps/rd_hist.cpp PerformAlgorithm"]}
{"id": "C100", "title": "Showing a window of a raster", "statement": "rd_raster_inspect shows exactly the cells of the raster in the window asked for (centre and radius, or rectangle), in order, with the centre highlighted, oriented as the flags and the geotransform say; an empty window is an error. Flags may stand anywhere; three numbers are a centre and radius, four a rectangle.", "quantifier": "every raster, window, flag combination, geotransform and argument order", "why_tests_cant": "windows at every position relative to the borders and every placement of the flags", "anchors": ["apps/rd_raster_inspect.cpp PerformAlgorithm, main"]}
{"id": "C101", "title": "D-infinity flow follows the steepest descent of the surface", "statement": "The angle dinf_flow_directions stores for an interior data cell is a direction in which the surface made of the eight triangles around the cell falls most steeply, and it is NO_FLOW if the surface falls nowhere; on an inclined plane it is the direction of the plane. dinf_masked_FlowDir does the same for the flat mask within a flat. FM_Tarboton sends flow to the corners of a triangle that holds a direction of steepest descent among the triangles of data cells, up to its angle tolerance.", "quantifier": "every raster of real elevations, NoData placement, interior cell and direction (a continuum)", "why_tests_cant": "the maximum is over a continuum of directions and all elevations", "anchors": ["include/richdem/flowmet/dinf_flowdirs.hpp dinf_FlowDir", "include/richdem/flats/flat_resolution_dinf.hpp dinf_masked_FlowDir", "include/richdem/flowmet/Tarboton1997.hpp FM_Tarboton"]}
{"id": "C102", "title": "Layout file tools report the largest square of tiles and reader-compatible rows", "statement": "rd_layout_find_square.py finds the side of the largest square of tiles of a layout file, and the layout file it writes for each size up to that is read by the library as a size x size grid of tile names cut from one place of the original. A layout file about whose rows rd_layout_check.py gives no warning is accepted by the layout file reader with the reported number of rows; every entry is counted once, as a null or a data tile; duplicates and missing files are reported exactly when there are some.", "quantifier": "every layout file text, every set of files present", "why_tests_cant": "the square is a maximum over all places and sizes of an arbitrary layout; file texts are unbounded", "anchors": ["apps/rd_layout_find_square.py LargestSquareOfOnes", "apps/rd_layout_check.py", "include/richdem/tiled/A2Array2D.hpp LayoutfileReader"]}
{"id": "C103", "title": "The tile cache keeps the most recently used tiles, and getEvictions() is exact", "statement": "With cache size c, after any sequence of accesses a tile of a tiled raster is in memory exactly if it has been accessed and fewer than c other tiles have been accessed since its last access; getEvictions() plus the number of tiles in memory is the number of accesses that found their tile not in memory. Holds for writable rasters (reads, writes, setAll) and for rasters opened from a layout; null tiles take no place.", "quantifier": "every tiling, null tile pattern, cache size other than 0, and every finite history of accesses", "why_tests_cant": "the statement is about all access histories, whose number grows without bound", "anchors": ["include/richdem/tiled/A2Array2D.hpp _LoadTile", "include/richdem/tiled/A2Array2D.hpp getEvictions", "include/richdem/tiled/lru.hpp LRU"]}
{"id": "C104", "title": "LoadGDAL and SaveGDAL carry a raster and its metadata through a file", "statement": "LoadGDAL returns a new array with the cells, element type, NoData, geotransform, projection and history of the file (raising exactly if there is no NoData value or the element type is not supported); SaveGDAL writes the array: loading a file and saving it gives the same raster back.", "quantifier": "every file and every array", "why_tests_cant": "the cells range over all numbers of each element type; most do round-trip", "anchors": ["wrappers/pyrichdem/richdem/__init__.py LoadGDAL", "wrappers/pyrichdem/richdem/__init__.py SaveGDAL"]}
{"id": "C105", "title": "The Python command-line programs write what their names promise", "statement": "rd_depression_filling writes the depression-filled DEM (with -g every cell has a strictly descending path to the edge or NoData), rd_breach_depressions the breached DEM, rd_flow_accumulation the accumulation by the method named, each with the geotransform and projection of the input and a history that says what was done.", "quantifier": "every input file, every method name and exponent", "why_tests_cant": "all rasters and all element types; the failures need values that single precision cannot hold, or a look at the output at all", "anchors": ["wrappers/pyrichdem/richdem/cli.py DepressionFilling", "wrappers/pyrichdem/richdem/cli.py BreachDepressions", "wrappers/pyrichdem/richdem/cli.py FlowAccumulation"]}
{"id": "C106", "title": "rd_compare reports the differences of two rasters", "statement": "rd_compare says which of NoData value, geotransform and projection differ, and prints the largest and the smallest absolute difference of the cells; the largest is 0 exactly if the rasters are equal; rasters of different size are an error.", "quantifier": "every two raster files, of every pair of element types and sizes", "why_tests_cant": "all pairs of element types and sizes and all cell values, with rounding of the differences", "anchors": ["wrappers/pyrichdem/richdem/cli.py RdCompare"]}
{"id": "C107", "title": "Parallel loops give the same result under every schedule", "statement": "Flow directions, flow metrics, flat finding, flat directions, raising of flats, pit dependencies, LastLayer and terrain attributes give, with any number of threads, any dealing of the cells to the threads and any interleaving of their loads and stores, the raster the loop gives without threads; and every such loop ends.", "quantifier": "every raster, number of threads, division of the cells among the threads, and interleaving of the threads' memory accesses", "why_tests_cant": "the interleavings are exponentially many and chosen by the OpenMP runtime and the hardware; a race may never show up in a test run", "anchors": ["include/richdem/flowmet/d8_flowdirs.hpp d8_flow_directions", "include/richdem/flowmet/OCallaghan1984.hpp FM_OCallaghan", "include/richdem/flowmet/Freeman1991.hpp FM_Freeman", "include/richdem/flowmet/Holmgren1994.hpp FM_Holmgren", "include/richdem/flowmet/Fairfield1991.hpp FM_FairfieldLeymarie", "include/richdem/flowmet/Tarboton1997.hpp FM_Tarboton", "include/richdem/flowmet/dinf_flowdirs.hpp dinf_flow_directions", "include/richdem/flats/find_flats.hpp FindFlats", "include/richdem/flats/Barnes2014.hpp ResolveFlatsEpsilon_Barnes2014", "include/richdem/flats/flat_resolution.hpp d8_flow_flats", "include/richdem/flats/flat_resolution_dinf.hpp dinf_flow_flats", "include/richdem/depressions/fill_spill_merge.hpp MoveWaterIntoPits", "include/richdem/misc/misc_methods.hpp", "include/richdem/methods/terrain_attributes.hpp TerrainProcessor"]}
{"id": "C108", "title": "D-infinity upslope area is independent of the thread schedule", "statement": "The dependency matrix that dinf_upslope_area counts in parallel is the one counted without threads, so that the areas do not depend on the number of threads or their timing.", "quantifier": "every raster of angles, number of threads, division of the rows among the threads, and interleaving of the loads and stores of the counters", "why_tests_cant": "a lost update needs two threads to meet at one counter within a few instructions; a test run hardly ever shows it, and the schedules are too many to enumerate", "anchors": ["include/richdem/methods/dinf_methods.hpp dinf_upslope_area"]}
{"id": "C109", "title": "Flat resolution does not depend on the thread schedule", "statement": "GetFlatMask gives the same flat mask, and ResolveFlatsEpsilon the same elevations, with any number of threads and under any schedule of the threads that search for the edges of flats; the labels differ at most in their numbering.", "quantifier": "every DEM, number of threads, dealing of the cells to the threads, and order in which the threads append to the shared queues", "why_tests_cant": "the order of the queues is decided by the scheduler; there are factorially many orders", "anchors": ["include/richdem/flats/Barnes2014.hpp FindFlatEdges", "include/richdem/flats/Barnes2014.hpp GetFlatMask", "include/richdem/flats/flats.hpp ResolveFlatsEpsilon"]}
{"id": "C110", "title": "The depression hierarchy does not depend on the thread schedule", "statement": "GetDepressionHierarchy returns the same labels, flow directions and depressions (or the same error), with any number of threads, any dealing of the cells to the threads and any order in which OpenMP combines the threads' vectors of seed cells.", "quantifier": "every DEM, set of ocean cells, number of threads, dealing of cells, and order and association of the reduction", "why_tests_cant": "the order of the reduction is left open by OpenMP and changes from run to run", "anchors": ["include/richdem/depressions/depression_hierarchy.hpp GetDepressionHierarchy"]}
{"id": "C111", "title": "Random numbers: seeding, reproducibility, range", "statement": "seed_rand(s) with s != 0 makes everything random that follows reproducible: the same seed gives the same uniform and normal numbers, and the same Rho8/Rho4 flow proportions; different seeds and different threads give different sequences. SaveRandomState followed by SetRandomState repeats the sequence. uniform_rand_real(from,thru) lies in [from,thru). FM_Rho8 gives every interior data cell with a lower data neighbour exactly one, strictly lower, receiver whatever is drawn.", "quantifier": "every seed, number of threads, order of seeding, previous history, state of the engines, sequence of calls, interval, DEM and dealing of cells to threads", "why_tests_cant": "the claims compare all histories and all schedules; the failures need a particular seed (a multiple of 2^28), an odd number of earlier calls, or a draw of probability 2^-53", "anchors": ["src/random.cpp rand_engine, seed_rand, uniform_rand_real, normal_rand, SaveRandomState, SetRandomState", "include/richdem/common/random.hpp", "include/richdem/flowmet/Fairfield1991.hpp FM_FairfieldLeymarie"]}
{"id": "C112", "title": "Python: flow accumulation in two steps equals flow accumulation in one", "statement": "FlowProportions(dem, method, exponent) accepts exactly the documented names, the same as FlowAccumulation and with the same meaning, leaves its argument alone and returns a new array whose element [y,x,n] is the proportion cell (x,y) sends to neighbour n. FlowAccumFromProps(props) leaves the proportions alone and returns, for every proportions array whose border sends nothing, -1 in NoData cells and elsewhere one plus the proportions of the accumulations of the cells that send to it; with weights and in_place=False it leaves the weights alone. FlowAccumFromProps(FlowProportions(dem, m)) equals FlowAccumulation(dem, m) for every metric without random numbers.", "quantifier": "every DEM, method name, exponent, element type, proportions array, weights, history of memory", "why_tests_cant": "holds for all arrays, metrics and memory layouts; the failures need views, short arrays or hundreds of millions of cells", "anchors": ["wrappers/pyrichdem/richdem/__init__.py FlowProportions, FlowAccumFromProps, FlowAccumulation, rd3array", "wrappers/pyrichdem/src/pywrapper.cpp Array3D_float", "include/richdem/common/Array3D.hpp", "include/richdem/methods/flow_accumulation.hpp", "include/richdem/methods/flow_accumulation_generic.hpp FlowAccumulation"]}
{"id": "C113", "title": "Python: terrain attributes", "statement": "TerrainAttribute(dem, attrib, zscale) accepts exactly the eight documented names, leaves the DEM and every other array alone, and returns a new float32 array with the metadata of the DEM that holds -9999 exactly in the NoData cells and elsewhere the named attribute of the 3x3 window of elevations times zscale, with neighbours that are missing or NoData taken as level, for the cell size of the geotransform or 1x1 if there is none.", "quantifier": "every DEM, element type, NoData value, geotransform, attribute, zscale, cell and history of memory", "why_tests_cant": "holds for all rasters and memory layouts; the failures need particular NoData values, curvatures or strides", "anchors": ["wrappers/pyrichdem/richdem/__init__.py TerrainAttribute", "include/richdem/methods/terrain_attributes.hpp TerrainProcessor, TA_*", "include/richdem/common/Array2D.hpp getCellLengthX, getCellLengthY"]}
{"id": "C114", "title": "Flow accumulation in floating-point arithmetic", "statement": "FlowAccumulation on double accumulations: when every cell sends its flow to at most one neighbour (D8 and the other single-receiver metrics) and the inputs are whole numbers totalling at most 2^53, every accumulation is exact; in particular D8 accumulation with unit weights counts the cells upstream of each cell exactly, for every DEM of at most 2^53 cells. For metrics that split flow, with proportions stored as floats, the computed accumulation of every data cell differs from the exact accumulation of the exact proportions by a relative error of at most ((1+v)(1+2^-53)^9)^L-1, where v is the relative error of a stored proportion and L the number of cells of the longest flow path that ends at the cell, whatever the size of the raster, the queue order and the use of fused multiply-add; the total that reaches the cells without outflow equals the total input up to the same relative error; and no exact accumulation exceeds the total input.", "quantifier": "all rasters, proportions, non-negative inputs, queue orders, roundings with and without fused multiply-add", "why_tests_cant": "rounding errors accumulate over paths of unbounded length and over rasters too large to test; exactness has to hold for every network", "anchors": ["include/richdem/methods/flow_accumulation_generic.hpp FlowAccumulation", "include/richdem/methods/flow_accumulation.hpp FA_*", "include/richdem/flowmet/OCallaghan1984.hpp FM_OCallaghan"]}
{"id": "C115", "title": "Multiple-flow proportions in floating-point arithmetic", "statement": "FM_Freeman, FM_Holmgren and FM_Quinn as the machine runs them (elevations subtracted in their own type, gradients, contour lengths, powers and sums in double, proportions stored as float): every cell is marked the same, and sends flow to exactly the same neighbours, as with real numbers, and every proportion has a relative error of at most 3e+2^-22, where e is the error of a weight, (1+2 max(x,1)(t+2^-50))(1+d)-1, for a subtraction with error t and a pow with error d; for Quinn on doubles, floats or integers the error is at most 2^-21. The proportions of a cell add up to one up to the same error. With Holmgren and Quinn a single lower neighbour gets exactly all the flow. FA_Quinn from elevations to accumulations has a relative error of at most L/2^20, L being the longest flow path to the cell, and its water balance closes up to the same error.", "quantifier": "all rasters of doubles, floats or integers, all exponents x>=0, all non-negative inputs, queue orders, with and without fused multiply-add", "why_tests_cant": "the errors depend on every elevation difference and exponent; a bound for all of them is a proof by rounding-error analysis", "anchors": ["include/richdem/flowmet/Freeman1991.hpp FM_Freeman", "include/richdem/flowmet/Holmgren1994.hpp FM_Holmgren", "include/richdem/flowmet/Quinn1991.hpp FM_Quinn", "include/richdem/common/constants.hpp SQRT2 dr"]}
{"id": "C116", "title": "Small gradients do not stop the water (multiple-flow metrics)", "statement": "Every interior data cell that has a strictly lower data neighbour sends its flow on under FM_Freeman, FM_Holmgren and FM_Quinn, however small the gradients and whatever the exponent, and the error bounds of C115 hold with the range of float taken into account.", "quantifier": "all rasters of doubles, floats or integers, all exponents, all cells", "why_tests_cant": "whether a power of a gradient vanishes when it is stored depends on every elevation difference and exponent", "anchors": ["include/richdem/flowmet/Freeman1991.hpp FM_Freeman", "include/richdem/flowmet/Holmgren1994.hpp FM_Holmgren", "include/richdem/flowmet/Quinn1991.hpp FM_Quinn", "include/richdem/common/Array3D.hpp Array3D<float>", "include/richdem/depressions/Barnes2014.hpp PriorityFloodEpsilon_Barnes2014"]}
{"id": "C117", "title": "Volumes of depressions in floating-point arithmetic", "statement": "CalculateMarginalVolumes and CalculateTotalVolumes, summing elevations in double precision, give each depression a count that is right and a volume that is non-negative, independent of the number and order of threads, and within a small relative distance of the exact volume.", "quantifier": "all rasters of doubles, floats or integers, all divisions of the cells among threads and all orders in which the threads deliver their sums", "why_tests_cant": "rounding and cancellation depend on every elevation and on the order of the additions", "anchors": ["include/richdem/depressions/depression_hierarchy.hpp CalculateMarginalVolumes", "include/richdem/depressions/depression_hierarchy.hpp CalculateTotalVolumes", "include/richdem/depressions/depression_hierarchy.hpp Depression::dep_vol"]}
{"id": "C118", "title": "Rasters built from lists and templates; extremes and scaling", "statement": "A raster built from nested lists holds exactly these rows, and lists that are not rectangular are rejected; a raster built from a template has its dimensions and properties and every cell set to the given value; min and max return the extreme values of the data cells; scale multiplies every data cell and leaves NoData cells alone, so that data cells stay data cells.", "quantifier": "all lists of rows, all template rasters and cell types, all raster contents and NoData values, all factors", "why_tests_cant": "the cell values, their position and the NoData value are arbitrary", "anchors": ["include/richdem/common/Array2D.hpp Array2D(std::initializer_list)", "include/richdem/common/Array2D.hpp make_from_template", "include/richdem/common/Array2D.hpp min", "include/richdem/common/Array2D.hpp max", "include/richdem/common/Array2D.hpp scale"]}
{"id": "C119", "title": "The depression tools, from arguments to files", "statement": "rd_depressions_flood with size 0 or a size of at least the number of cells writes the depression-filled raster under the header of the input, with a smaller size n it raises only cells of depressions of at most n cells; rd_depressions_has reports depressions exactly if some cell has no never-ascending path to the edge, which is exactly if flooding changes a cell; rd_depressions_mask marks exactly the data cells flooding raises; rd_depressions_breach COMPLETE leaves every data cell drained, and limits that exclude nothing make the other modes the same; numeric arguments are read as written or rejected, and bad options end the program without output.", "quantifier": "all input files, all terrains and NoData values, all argument texts, all tie orders of the heap", "why_tests_cant": "terrain, sizes and argument texts are arbitrary", "anchors": ["apps/rd_depressions_flood.cpp", "apps/rd_depressions_has.cpp", "apps/rd_depressions_mask.cpp", "apps/rd_depressions_breach.cpp", "apps/router.hpp"]}
{"id": "C120", "title": "rd_flow_accumulation and rd_terrain_property, from arguments to files", "statement": "rd_flow_accumulation with the number of a method writes a raster under the header of the input that is NoData (-1) exactly on the NoData cells of the DEM and elsewhere holds the area of the cell plus the shares of the areas held above it that the method of that number sends; what the cells hold that send nothing on adds up to the area of the data cells; rd_terrain_property writes on every data cell the attribute of that number and NoData elsewhere; methods and attributes that do not exist are refused.", "quantifier": "all DEM files, all NoData values and geotransforms, all method numbers, exponents and argument texts", "why_tests_cant": "terrains, headers, exponents and argument texts are arbitrary", "anchors": ["apps/rd_flow_accumulation.cpp", "apps/rd_terrain_property.cpp", "include/richdem/methods/flow_accumulation.hpp", "include/richdem/methods/terrain_attributes.hpp"]}
{"id": "C121", "title": "rd_depression_hierarchy, from arguments to files", "statement": "rd_depression_hierarchy takes NoData cells and cells at the ocean level as ocean and writes a table with one line per depression and a raster of labels: the labels are the ocean, 0, and the depressions not made of others; from every cell a never-ascending path stays in its label and ends in the ocean or in the one pit of the label; following the parents of the table leads from every depression to the ocean; a parent that is no ocean link is made of exactly two parts; the lowest pass out of every depression leads into the other part of its parent, or, for an ocean link, to cells labelled with the parent; different tables have different texts; the raster of labels lies where the DEM lies; without a coast, input or level the program ends with an exception and writes nothing.", "quantifier": "all DEM files of fewer than 2^31 cells, all NoData values and ocean levels, all tie orders of the heap, all orders of equal outlets, all argument texts", "why_tests_cant": "terrains, headers, tie orders and argument texts are arbitrary", "anchors": ["apps/rd_depression_hierarchy.cpp", "include/richdem/depressions/depression_hierarchy.hpp", "include/richdem/common/Array2D.hpp"]}
{"id": "C122", "title": "rd_d8_flowdirs and rd_flood_for_flowdirs, from arguments to files", "statement": "rd_d8_flowdirs IN PREFIX writes PREFIX-flowdirs.tif, which lies where the DEM lies and has the NoData value 255: every data cell has a code from 1 to 8 and every NoData cell has 255; following the codes leads out of the data without loops and never ascends in the filled DEM; the result does not depend on the order of equal cells. rd_flood_for_flowdirs writes the same directions whatever the orientation of the raster. Other argument counts end with status -1, a missing input with an exception, and nothing is written then.", "quantifier": "all DEM files, sizes, NoData values, geotransforms, names, tie orders of the heap", "why_tests_cant": "terrains, headers, tie orders and argument texts are arbitrary", "anchors": ["apps/rd_d8_flowdirs.cpp", "apps/rd_flood_for_flowdirs.cpp", "include/richdem/flats/flat_resolution.hpp: barnes_flat_resolution_d8", "include/richdem/common/Array2D.hpp: templateCopy"]}
{"id": "C123", "title": "Timer and progress bar", "statement": "A timer throws exactly when it is started or read while it runs or stopped or lapped while it does not, and accumulates the sum of the lengths of its intervals, never a negative time. A progress bar does no harm: no history of reports by any threads between start and stop throws or is undefined; it shows the percentage of the work done, at most 100, each percentage once and in increasing order, ending with 100 when the work is done; it counts the work reported; and stop gives the time since start.", "quantifier": "all histories of calls, all clock readings, all totals and amounts of work, all threads and team sizes, builds with and without OpenMP", "why_tests_cant": "histories, thread schedules, clock readings and 32-bit amounts of work are unbounded", "anchors": ["include/richdem/common/timer.hpp: Timer", "include/richdem/common/ProgressBar.hpp: ProgressBar"]}
{"id": "C124", "title": "Drawing rasters and layouts on the terminal", "statement": "rd_raster_display shows one line for each row and one number for each cell of any raster, oriented as the geotransform and the directive (noflip, fliph, flipv, fliphv) say, so that the cells, as whole numbers, can be read back; columns are aligned; an unknown directive is reported. rd_layout_display.py shows one line for each line of a layout file and one character for each entry, # exactly for those that name a tile.", "quantifier": "all rasters, geotransforms, cell types, directives and arguments; all layout files", "why_tests_cant": "sizes, cell values, geotransforms and file contents are unbounded", "anchors": ["apps/rd_raster_display.cpp: PerformAlgorithm, main", "apps/rd_layout_display.py"]}
{"id": "C125", "title": "Printing functions of Array2D", "statement": "printAllFlows writes codes that can be read back, printAllIndices the storage index of each cell, and printBlock the cells of a block centred at a cell, clipped to the raster, with only the centre in colour; none of them reads outside the raster, whatever the centre, radius and field width.", "quantifier": "all rasters, field widths, centres and radii", "why_tests_cant": "sizes, positions and radii are unbounded", "anchors": ["include/richdem/common/Array2D.hpp: printBlock, printBlockIndices, printAllFlows, printAllIndices"]}
