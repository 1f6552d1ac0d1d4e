S.update({
"C01":("proved","Index arithmetic over unbounded ints; uint32 version proved equal under width*height<2^32, wrap-around beyond that exhibited."),
"C02":("proved","getN/nToI/nshift/isEdgeCell."),
"C03":("proved","Direction tables and ArcGIS conversion."),
"C04":("proved","For every heap (PQ) and linear order; NaN excluded."),
"C05":("proved","For every heap (PQ) and linear order; NaN excluded."),
"C06":("proved","Original and Barnes2014; epsilon variant in C10."),
"C07":("proved","HasDepressions iff not Drained iff filling changes a cell."),
"C08":("proved","Idempotence, monotonicity, D8<=D4."),
"C09":("proved","Termination, iteration count, pit count, access safety for Original and Barnes2014."),
})
S.update({
"C10":("proved","next = std::nextafter(.,+inf) abstracted to any function with z < next z (finite floats)."),
"C11":("proved","For every heap; path also stays at or below the water level of its start."),
"C12":("proved","Under the documented assumption that NoData is not above any elevation."),
"C13":("proved","Mask 3 on NoData, 1 iff filling raises the cell."),
"C14":("partial","Documented claim refuted (C14_small_depressions_missed). Proved: larger depressions untouched, all-or-nothing per depression, unlimited = full fill."),
"C51":("partial","Refuted for enclosed NoData; exact characterisation proved for Barnes2014 (Original follows by C05)."),
})
S.update({
"C27":("proved","All histories of makeSet/unionSet/findSet/sameSet; ids below 2^32-1 (makeSet(2^32-1) shown to empty the structure)."),
"C28":("proved","On representatives, in every reachable structure; misuse shown to corrupt (cycle, split)."),
"C29":("partial","Order, back, pop_back, prune, size, full proved for all histories. insert proved except when the cache is empty and the key equals the stale `last`; there the documented behaviour is refuted."),
"C30":("proved","All monotone histories and key widths, both heaps; radix_heap::min() refuted (stale), pair_radix_heap::min_key proved."),
"C31":("proved","Unsigned, signed (any width), IEEE floats; decode inverts encode on every pattern."),
"C32":("proved","Cell comparisons equal the linear order with NaN lowest; queue orders are strict total orders and the FIFO/LIFO rule holds below 2^31 insertions (refuted at 2^31)."),
"C33":("partial","Proved for all histories without assignment to a vector that wraps caller memory; refuted with such an assignment and with self-move."),
"C50":("proved","In exact arithmetic over every ordered field."),
})
S.update({
"C34":("partial","flipVert proved. flipHorz refuted on every non-empty raster (out-of-bounds swap); transpose refuted (identity on squares, wrong cells otherwise)."),
"C35":("proved","resize and expand, owned and wrapped memory; fewer than 2^31 cells."),
"C36":("partial","setRow/setCol/setEdges/getRowData/getColData/countval/replace/setAll/== proved; numDataCells refuted after an edit (stale cache)."),
})
S.update({
"C37":("partial","Round trip proved for every consistent raster with a geotransform and fewer than 2^32 cells, and dumpData/loadData; refuted for rasters without geotransform (out-of-bounds read)."),
"C38":("partial","Refuted for every crash point after the header: the load never reports an error and fills the missing cells with T()."),
"C39":("partial","Round trip and row-major iteration proved; refuted when every row ends in a null tile (last column lost)."),
"C40":("partial","Proved when the file name itself has a period or the path has none; refuted for every other path (empty result)."),
"C41":("partial","Refinement to one big raster and residency bound proved for template-built writable rasters, all histories and cache sizes; refuted for dimension-built rasters, equal base names, cache size 0 and an unlucky uninitialised LRU::last."),
})
S.update({
"C16":("proved","Any linear order of elevations (no NaN); NoData-neighbour behaviour under the documented assumption that NoData is below all data."),
"C17":("partial","Metric proved for both topologies; D8 consistency with FlowAccumulation proved; refuted for D4 (slots are read as D8 directions)."),
"C20":("proved","Exact arithmetic over any ordered commutative ring; every queue order; edge cells silent (true of all metrics)."),
"C21":("proved","Every direction raster, cyclic included, every queue order; the loop report is shown to be always zero."),
"C52":("partial","False of the code: lost-update interleaving gives a wrong area. Proved for every schedule: no over-count; exact for cells incremented by one thread only."),
})
S.update({
"C23":("proved","FindFlats and FindFlatEdges, for every raster; queue order unspecified (OpenMP critical)."),
"C24":("proved","For every order of the edge queues."),
"C25":("proved","For every order of the edge queues; exact mask values as graph distances."),
"C26":("partial","Epsilon: proved for every raster (nextafter abstracted to any strictly increasing step); 'creates no pits' holds only under a gap hypothesis, refuted otherwise. Flow directions: refuted for non-square rasters (out-of-bounds) and for pits (slot -1 write); proved for square rasters without such pits."),
})
S.update({
"C42":("proved","BucketFill from a seed and from the edges, for every raster; the depth-first order is covered by an arbitrary work-list order."),
"C47":("partial","CELL_COUNT proved for NoData-free rasters; refuted when a cell borders NoData (interior NoData neighbours are not counted). SQUARE_EDGE proved."),
"C53":("proved","Every raster and queue order, alter=false."),
"C54":("proved","Every non-empty raster and NoData placement, exact arithmetic."),
"C55":("proved","Over the real numbers (rounding not modelled)."),
"C26":("partial","Epsilon: proved for every raster (nextafter abstracted to any strictly increasing step); 'creates no pits' holds only under a gap hypothesis, refuted otherwise; integer elevations are lowered instead of raised (refuted: numeric_limits<int>::infinity() is 0). Flow directions: refuted for non-square rasters (out-of-bounds) and for pits (slot -1 write); proved for square rasters without such pits."),
})
S.update({
"C18":("proved","Exact arithmetic: any ordered field for the distribution, the reals for the powers; rounding not modelled."),
"C19":("partial","FM_Tarboton over the reals: at most two adjacent receivers, shares sum to one, only lower neighbours. Refuted: the two shares are swapped (the nearer neighbour gets the smaller share), for every angle."),
"C22":("partial","The flood is exact for every direction raster and set of starting cells; the line of starting cells is right for points, horizontal and gentle lines; refuted for vertical, steep and overrunning lines."),
"C56":("partial","Proved for every raster and every non-zero draw; refuted for Rho4 when the generator returns 0."),
"C57":("proved","Exact arithmetic; every queue order."),
})
S.update({
"C19":("partial","FM_Tarboton over the reals: at most two adjacent receivers, shares sum to one, only lower neighbours. Refuted for FM_Tarboton and for area_proportion: the two shares are swapped (the nearer neighbour gets the smaller share), for every angle."),
"C58":("partial","Proved over the reals for every DEM and queue order, for cells with non-zero angle or with inflow; refuted for cells flowing due east (angle 0 equals NO_FLOW): on every plane falling due east all interior areas are 0."),
})

S.update({
"C59":("proved","Flood phase; labels are unbounded naturals in the model (uint32 in the code)."),
"C60":("proved","Outlet database as a map from ordered label pairs."),
"C61":("proved","For 2*labels < 2^32; any ascending enumeration of the outlet table."),
"C62":("proved","Over any linear order of elevations (no NaN)."),
"C63":("proved","Over any linear order of elevations (no NaN)."),
})
S.update({
"C43":("proved","Exact arithmetic (any ordered commutative ring); every split of the cells among threads and every merge order. The ocean's own volume (0*infinity in the code) is left unspecified."),
})
S.update({
"C44":("partial","Exact arithmetic. Proved for every hierarchy the builder can return and every placement of water: no assertion or exception, levels within capacity, total conserved up to eps=1e-6 per depression (dropped by fp_eq). Missing: termination of the mutual recursion (the statement is about runs that return)."),
})
S.update({
"C48":("proved","Exact arithmetic (fields; reals for slope and aspect). Also proved: aspect never is -1 on flat ground although documented so; curvature -1 coincides with the default NoData value of the output."),
"C64":("partial","Values proved over the reals; refuted: the NoData value -1 is attained by data cells for both indices."),
})
S.update({
"C45":("proved","Exact arithmetic (any ordered field), tolerance eps of fp_eq explicit. Also proved: the exact assertion fill_amount<=-sill_wtd can fail within the tolerance the caller allows."),
"C65":("partial","Exact arithmetic. Conservation and flatness proved for every run that returns, any water tables. Return proved on saturated ground; refuted on unsaturated ground (the assertion water_vol>=0 fails although there is room)."),
})
S.update({
"C15":("proved","For every heap (order of equal elevations). Includes: Zhou2016's d8x[n]/d8x[nn] slip cannot change the result; Wei2018's unchecked accesses stay inside the raster; with NoData Wei2018 is specified separately (C15_wei_nodata) and differs from the others (C15_wei_nodata_differs)."),
})
S.update({
"C46":("proved","Both topologies, every heap order, NoData. Elevations a linear order. eps_gradients variant also proved (C46_eps_drained)."),
"C66":("partial","Proved for the cells visited before the loop ends; refuted for the others: the loop breaks at the last pit and the flooding then dams up unvisited cells (C66_flooding_misses_cells)."),
})

S.update({
"C49":("proved","Any raster, block size, pattern of mirrored tiles, heap orders and arrival order. No missing tiles (see C68). Elevations a linear order; NoData cells count as terrain, as in the program."),
"C67":("partial","Proved for tiles kept in memory; refuted for tiles kept on disk: SaveToCache writes labels over the elevations and LoadFromCache reads a file that is never written."),
"C68":("partial","Soundness proved everywhere; completeness away from the first two rows and columns, and refuted there."),
"C69":("partial","Admissibility proved; nearness refuted (|x-best| instead of |best-selected|)."),
})
S.update({"C44":("proved","Exact arithmetic. For every hierarchy the builder can return and every placement of water: no assertion or exception, the recursion ends (at most 2n nested calls), levels within capacity, total conserved up to eps=1e-6 per depression (dropped by fp_eq).")})
S.update({"C70": ("partial", "Conservation and termination proved for every input; the run-off characterisation needs that nothing flows into cell (0,0), or that it is an end point of flow with its water table at the ground (C70_dry_refuted shows the documented postcondition fails otherwise).")})
S.update({"C71": ("partial", "Proved for every terrain, hierarchy and water on saturated ground, provided nothing flows into cell (0,0) or (0,0) is an end point of flow without water of its own; C71_unsaturated_refuted, C71_unsaturated_overflow_refuted and C71_corner_refuted show that the claim fails otherwise."),
"C72": ("proved", "Refinement of the radix heap by a stack for every sequence of calls; the flood phase with the heap equals the flood phase with the stack."),
"C73": ("proved", "Stack-discipline invariant of the flood; C73_fifo_refuted and C73_terrace_refuted show that the order of equal elevations and the absence of lower neighbours are needed.")})
S.update({"C74": ("partial", "Proved for every acyclic direction raster and tiling with at least two rows in every tile, at most 65526 perimeter cells per tile and no two tiles touching at a corner only; C74_one_row_refuted, C75_large_refuted and C74_corner_refuted show that the program fails otherwise. Cyclic paths reached from the perimeter throw (C74_cycle_throws)."),
"C75": ("partial", "Bijection and perimeter listing proved for all tiles of at least two rows and columns; C75_one_column_refuted and C75_large_refuted show the numbering repeats for one column and does not fit 16 bits for large tiles.")})
S.update({"C76": ("partial", "Proved for one consumer, or any number of consumers when all first-round results have the same size; C76_probe_race_refuted shows that CommRecv, which probes and receives with MPI_ANY_SOURCE, can otherwise receive a longer message than it made room for. MPI is modelled as reliable first-in-first-out channels of unbounded length.")})
S.update({"C77": ("proved", "Any raster, tiling and choice of tiles without data. Elevations a linear order; the tile cache is transparent (its own claim); flips not modelled.")})
S.update({"C78": ("partial", "Both gradients are proved exact for all rasters, and each loop's termination is characterised. C78_resolves_refuted: the gradients can cancel, leaving a cell without direction; C78_new_pit_refuted: raising a flat can block a cell that drained; C78_ends_refuted and the two hang theorems: the loops never end on a level raster or with a depression. Exact arithmetic: for integer rasters the code's increments truncate to nothing.")})
S.update({"C79": ("partial", "Proved for floating-point elevations. C79_integer_refuted: for integer elevations numeric_limits::infinity() is 0, so LastLayer throws at any cell that drains to the ocean and is not below zero.")})
S.update({"C80": ("proved", "C80_nodata_refuted shows the hypothesis on the NoData value is needed: with NoData 5, a cell flowing east becomes NoData.")})
S.update({"C81": ("partial", "Proved: on rasters ten or more columns wide a closed report is printed exactly for the paths of at least `width` steps, hence for every loop. Refuted otherwise: C81_narrow_refuted (nothing is ever printed on rasters narrower than ten columns, because of an unsigned wrap-around) and C81_false_alarm_refuted (a long path that ends is reported as a loop).")})
S.update({"C82": ("partial", "Proved for north-up rasters. For south-up rasters (geotransform[5]>0) the tool flips the result back without exchanging north and south in the codes: C82_south_up_refuted gives a two-cell loop on a plain slope, and C82_south_up_partial proves that exchanging them would repair it. geotransform[1]<0 runs into flipHorz, which is undefined behaviour (C34).")})
S.update({"C83": ("partial", "Addressing, independence, bounds and the NoData test are proved. Refuted by concrete witnesses: numDataCells counts the first width*height numbers instead of the cells (C83_count_refuted, C83_count_low_refuted); == ignores the NoData value and overruns a cleared raster (C83_eq_noData_refuted, C83_eq_cleared_refuted); the NoData value is read uninitialised before setNoData (C83_uninitialised_refuted); the index assertion admits slot 9, which is the next cell's slot 0; wrapping a caller's array of 2^31/9 cells or more overflows an int (C83_wrap_refuted).")})
S.update({"C84": ("partial", "Everything is proved except the range: heights are proved to lie in [-1/4, 5/4], and C84_unit_range_refuted exhibits a permutation with a height of 1.008688 in a 20x20 raster. Exact arithmetic; std::shuffle is replaced by an arbitrary permutation.")})
S.update({"C85": ("partial", "Proved with 'has an angle' read as the code reads it (angle other than 0). C85_right_edge_refuted and C85_east_overwritten_refuted show what that costs: a flat that drains over the right edge only stays unresolved and, read as an angle, flows uphill; and a cell whose steepest descent is due east loses its downhill direction. Exact real arithmetic, angles in units of \u03c0/4.")})
S.update({"C86": ("partial", "Proved: which windows load (iff), what they contain, the round trip, the frame, and the exact condition for a tile to keep its place. Refuted: size 0 does not mean 'to the edge' from a non-zero offset (always throws); 'exact' refuses interior tiles (C86_exact); a padded save keeps the padded size and writes the block to the corner; rotated rasters are displaced; a window saved with the default offsets is displaced. GDAL itself, type conversion through double and float rounding are not modelled.")})
S.update({"C87": ("partial", "Proved for one raster in memory: every sequence of saves accumulates the history in order and keeps other items. Refuted for files: ProcessMetadata's loop runs while the entry IS null, so every file's metadata is lost on loading, a list without entries is undefined behaviour, no history accumulates over any chain of programs, and saveGDAL never writes 'Unspecified Operation'.")})
S.update({"C88": ("partial", "Proved for writable rasters whose first tile is not null and whose tiles agree on NoData. Refuted: a null first tile, or setNoData with another value while there are null tiles, makes saving throw; tile-by-tile saving passes the literal 0 as a std::string and always throws.")})
S.update({"C89": ("partial", "Proved for saturated ground (no negative water on land) and a top-left cell that is ocean or higher than its neighbours. Both conditions are needed (C89_corner_refuted, C89_unsaturated_refuted). The NoData clauses are false: a NoData cell is saved as 0, not NoData (C89_nodata_lost_refuted), and when the NoData value lies above the terrain it is a wall, not an outlet (C89_nodata_wall_refuted); when it does not, it drains its neighbours (C89_nodata_drains_partial). Arithmetic is exact (ordered field), tolerance eps as in fp_eq.")})
S.update({"C90": ("partial", "Refuted for names without an extension below a directory with a period in its name: the directory is cut at the period (C90_directory_lost_refuted). POSIX separators.")})
S.update({"C91": ("partial", "The in_place=False half is proved in full for the three DEM functions, with the filled/breached result. Refuted: in_place=True (and every FlowAccumulation) on an array that is not C-contiguous works on memory already freed (C91_in_place_view_refuted, C91_accumulation_view_refuted); weights are overwritten although in_place=False (C91_weights_refuted); no_data goes through single precision, so NoData cells of a double raster are taken for data (C91_no_data_refuted); FlowProportions raises on every generated terrain (C91_proportions_refuted). The rest is proved for contiguous arrays and for integer or whole-number no_data. NumPy and pybind11 behave as stated in Py/Model.lean; finite values only.")})
S.update({"C92": ("partial", "Proved for arrays that are C-contiguous with memory of their own, saturated ground (no negative water table; C71 refutes the rest), and either no land beside (0,0) at or above its height or no rain on an ocean cell (0,0). Refuted: with rain on the ocean cell (0,0) the ocean stays wet (C92_corner_refuted); the Python list of depressions never learns the water volumes (C92_deps_refuted); flow directions go up to 8, not 7 (C92_direction_range_refuted); arrays of different sizes are not rejected (C92_sizes_refuted, C92_hierarchy_sizes_refuted). Exact arithmetic.")})
S.update({"C93": ("partial", "Proved: the selective mode pit by pit and as a whole run, the zero and the unlimited cases. Refuted: repeated cuts lower a cell by more than maxdepth in total (C93_total_depth_refuted); constrained breaching lowers by more than maxdepth (C93_constrained_depth_refuted) and digs paths longer than maxpathlen (C93_constrained_length_refuted).")})
S.update({"C94": ("proved", "Recursion depth is counted in nested calls of findSet. The amortised inverse-Ackermann bound in the comment is not modelled.")})
S.update({"C95": ("partial", "Proved for files that need no sideways flip and for an uninitialised LRU::last that is not by accident a tile (C41_stale_pointer). Refuted: a tile that needs a sideways flip cannot be read (C95_sideways_refuted); assignments and setAll are lost on eviction (C95_write_lost_refuted, C95_setAll_lost_refuted). Files are not changed while open; GDAL not modelled.")})
S.update({"C96": ("partial", "Proved for layouts that start with a file, whose NoData values agree (that of a blank is the default -1), files placed as the layout says, north-up, not flipped (C96_located_partial), and cell by cell for vertical flips (C96_merge_partial). Refuted: a layout with a blank and another NoData value than -1 cannot be merged (C96_blank_refuted), nor one that starts with a blank (C96_first_blank_refuted); files whose rows run upwards are turned over but keep their geotransform (C96_upward_refuted).")})
S.update({"C97": ("partial", "Proved for files of the same size (C97_compare, C97_silent_iff) and integer types without a uint32 against a negative value (C97_types_partial). Refuted: a smaller second file is read behind its end (C97_smaller_refuted), a larger one is compared in part and the answer depends on the order (C97_order_refuted), a missing geotransform equals the stand-in (C97_geotransform_refuted), int32 -1 equals uint32 4294967295 (C97_types_refuted). Floating point conversions and NaN not modelled.")})
S.update({"C98": ("partial", "Proved: C98_expand, C98_geotransform, C98_projection; C98_noData_partial for the text of an int. Refuted: a fraction or exponent of the NoData text is dropped (C98_noData_rest_refuted, C98_noData_fraction_refuted); refusing to shrink ends with status 0 (C98_expand_status_refuted); no history is ever shown (C98_history_refuted). std::stod is a parameter; GDAL not modelled.")})
S.update({"C99": ("proved", "Rasters of fewer than 2^31 cells, no NaN cells; the line for the NoData value is not modelled.")})
S.update({"C100": ("partial", "Proved for views that need not be mirrored: C100_centre, C100_centre_outside, C100_rectangle_partial (rectangle inside the raster), C100_flags, C100_arguments. Refuted: a rectangle that reaches beyond the raster reads outside (C100_rectangle_outside_refuted); a view that has to be mirrored cannot be shown (C100_mirrored_refuted).")})
S.update({"C101": ("proved", "Exact reals; floating point rounding not modelled. FM_Tarboton: the triangle is right, the shares inside it are reversed (C19_shares_reversed); its slope is optimal up to cos(1e-7), the cost of the tolerance in the code.")})
S.update({"C102": ("partial", "The square is proved for rectangular layouts that have a tile outside the last row and the last column; otherwise the tool answers -1 and writes nothing (C102_last_row_refuted, C102_one_row_refuted). ASCII white space; no carriage returns.")})
S.update({"C103": ("partial", "Proved (C103_writable_partial, C103_layout_partial) under the conditions of C41 and C95: different cache file names, cache size other than 0, template-built or opened from a layout without sideways flips, and an uninitialised LRU::last that is not by accident a tile. Fails otherwise: C41_cache_size_zero, C41_stale_pointer.")})
S.update({"C104": ("partial", "Proved: C104_load, C104_load_raises, C104_save (always Float32: nearest float, ties to even, order kept), C104_save_raises, and the round trip for cells that are single-precision numbers (C104_round_trip_partial; all cells of the 8- and 16-bit types are, C104_small_types). Otherwise false: C104_round_trip_refuted (Int32 16777217 becomes 16777216; a Float64 data cell becomes NoData). Overflow and denormals of single precision, and metadata other than the history, are not modelled.")})
S.update({"C105": ("partial", "Proved: C105_fill_tool (the fill of the input rounded to single precision), C105_gradient_partial (single-precision input), C105_accum_tool_partial, C105_methods. Refuted: C105_breach_tool_refuted (the program never breaches: it saves what it read), C105_gradient_refuted (double precision), C105_accum_large_refuted, C105_no_data_refuted with C105_no_data_bad (undefined for bytes with NoData -9999, UInt32 with 4294967295, ...), C105_methods_help_refuted. The C++ accumulation functions are parameters here (their properties: C17-C21, C56-C58).")})
S.update({"C106": ("partial", "Proved: C106_metadata, C106_sizes, and, for same-size rasters of more than one row and column of which one is floating-point, C106_difference_partial (extremes are those of the rounded differences; zero exactly on equality, as rounding never turns a difference into 0). Refuted: C106_integer_refuted (two integer rasters always raise, the format 10.6 is invalid for integers), C106_broadcast_refuted (a single row is broadcast over a larger raster and found equal to it). Not claimed: the mean and the root mean square, NaN, overflow and denormals.")})
S.update({"C107": ("partial", "Proved for each loop: C107_d8_directions, C107_dinf_directions, C107_ocallaghan, C107_rho (given the random numbers of each cell), C107_multiple_flow, C107_tarboton, C107_find_flats, C107_negate, C107_flow_flats, C107_dinf_flow_flats, C107_raise_flats (its iterations read cells other threads are raising; the elevations do not depend on what they read), C107_pit_dependencies, C107_last_layer, C107_attributes, and C107_finishes. Refuted: C107_warnings_refuted (the number of inappropriately raised cells that ResolveFlatsEpsilon logs depends on the schedule). Memory is sequentially consistent. The loops whose increments race (D8 accumulation, D-infinity area) are C52 and C108.")})
S.update({"C108": ("partial", "False of the code: C108_lost_update_refuted gives a schedule of unprotected increments with which an area is 3 instead of 5. Proved: C108_never_overcounts_partial (a count is never too large), C108_one_thread_exact_partial (a cell fed from the rows of one thread is counted right), C108_race_free_area_partial (then the areas are those of C58), C108_feeds (the increments are the D-infinity flow edges of C58). Memory is sequentially consistent.")})
S.update({"C109": ("partial", "Proved: C109_queues (the queues hold exactly the edges, each once), C109_mask, C109_labels (equal up to renumbering), C109_elevations. Refuted: C109_label_numbers_refuted (the number a flat gets in the labels raster, which GetFlatMask returns, depends on the schedule), so the statement holds with labels up to renumbering only. The raising of the cells itself is C107_raise_flats.")})
S.update({"C110": ("proved", "C110_seeds (the sorted vectors are exactly the ocean cells next to land and the pits, in increasing order), C110_hierarchy, C110_schedule. C110_sort_needed shows a DEM on which leaving out the sort would make the numbering depend on the schedule. Exceptions thrown inside the parallel region are modelled as an error result (formally the program is terminated). The parallel loop of the marginal volumes is C43, LastLayer C107.")})
S.update({"C111": ("partial", "Proved: seeding is defined for up to 32 threads; uniform numbers (and normal ones if none was kept) depend only on the seed; threads are seeded differently unless the seed is a multiple of 2^28; restoring repeats the uniform numbers of the calling thread; [0,1) for the unit interval and the closed interval otherwise (if its width is a double); Rho8 for all draws and dealings; Rho8/Rho4 reproducible for a fixed dealing. False and refuted by theorems: the seed is multiplied by the thread number, so thread 0 - the whole program when run with one thread - is always seeded with 0 (C111_seed_ignored_refuted, C111_rho_seed_refuted); a seed of 2^32 seeds all threads alike; normal_rand keeps its second number across seeding and restoring; the other threads are not saved; more than 32 threads overrun the array; [1,2) can return 2; the result of Rho8 depends on the dealing of the cells.")})
S.update({"C112": ("partial", "Proved for C-contiguous arrays with geotransforms that are tuples or missing and fewer than 2^31/9 cells: C112_methods, C112_proportions_partial, C112_from_props_partial, C112_upstream_partial, C112_two_steps_partial, and with the D8 metric end to end C112_d8_partial. Refuted: larger DEMs are undefined behaviour (C112_large_refuted: 9*width*height in int), a geotransform that is a NumPy array raises (C112_array_geotransform_refuted), views and arrays with fewer than nine layers are read out of bounds instead of raising (C112_view_refuted, C112_layers_refuted), weights are overwritten although in_place=False (C112_weights_refuted). The metric is a parameter (its results are C17-C19, C56); accumulation in exact arithmetic.")})
S.update({"C113": ("partial", "Proved for C-contiguous DEMs: C113_names, C113_attribute_partial (formulas written out in attrSpec; exact arithmetic followed by one conversion to float, a parameter). Refuted: -9999 is also a possible curvature (C113_curvature_clash_refuted), NoData cells of a double DEM whose NoData value is not a single-precision number are given slopes (C113_double_no_data_refuted), views are undefined behaviour (C113_view_refuted).")})
S.update({"C114": ("proved", "C114_exact, C114_count_exact, C114_d8_counts (whole flows), C114_error (any network, cyclic ones included), C114_error_path, C114_error_path_numbers (floats, paths up to 2^22 cells: L*2^-23), C114_error_numbers, C114_mass_balance, C114_bounded. C114_limit_refuted shows that 2^53 (2^24 for float accumulations) cannot be raised. Rounding is to nearest, ties to even, with unbounded exponents: overflow and denormals are not modelled; the relative error v of the proportions themselves is a hypothesis (2^-24 for a correctly rounded float).")})
S.update({"C115": ("proved", "C115_freeman, C115_holmgren, C115_quinn, C115_sum, C115_single, C115_accumulation, C115_balance. C115_exact_refuted: the proportions do not add up to one exactly (Quinn with three equal outlets sends out more water than arrives; Freeman gives a single outlet less than everything). pow is a parameter with its relative error as a hypothesis; exponents of floating-point numbers are unbounded: overflow and underflow are not modelled; the subtraction of integers is exact (no int overflow).")})
S.update({"C116": ("partial", "False as stated: C116_refuted (a slope of one unit in the last place of a double at elevation 1000, as epsilon filling leaves it, exponent 4: neither metric sends any flow; Freeman even marks the cell as one that has flow). Proved: C116_freeman_sends and C116_holmgren_sends say exactly when a cell sends flow (the power of the gradient to some lower neighbour exceeds 2^-150); C116_quinn_sends_partial: with Quinn a drop of more than 2^-147 suffices; C116_quinn_partial, C116_freeman_partial, C116_holmgren_partial: within a range (drops 2^-47 to 2^49, weights 2^-50 to 2^50) the bounds of C115 hold with real floats. Overflow of float and of double is not modelled.")})
S.update({"C117": ("partial", "False as stated: C117_refuted (a basin of nine cells with a positive volume is given a negative one by one thread, a different one by two: cancellation of count times spill elevation against the sum). Proved for every division among threads: C117_error_partial (counts right; volume within (k+2) 2^-52 k M of the exact one for k cells of size at most M) and C117_exact_partial (elevations that are multiples of 2^e with 2 k M < 2^53 2^e, such as integers: exact, hence non-negative and independent of the threads). The assertion that two children hold at most their parent's volume (line 896): C117_assertion_refuted (it fails through rounding at elevations near 2^41 although it holds of the exact volumes), C117_assertion_partial (N cells below M with 2 N (N+3) M <= 9e-7 * 2^52: never), C117_assertion_exact_partial (exact elevations: never). Overflow of the 32-bit cell count is not modelled.")})
S.update({"C118": ("partial", "Proved: C118_list (rows of equal length give the raster, others raise), C118_template_partial (dimensions, placement, projection, name, metadata, contents), C118_min_partial and C118_max_partial (extremes of the data cells when one is within the finite range of the type), C118_nan (NaN cells are ignored even when NaN is not NoData), C118_scale with C118_scale_double, C118_scale_float and C118_scale_int (what every cell becomes; when it is undefined). Refuted: C118_empty_list_refuted (a list without rows is undefined behaviour), C118_template_noData_refuted (the NoData value is not taken over), C118_no_data_refuted (without data cells min returns the largest number of the type, above max), C118_infinite_refuted (only infinite elevations: min is finite), C118_scale_refuted (data cells become NoData, scaling back does not restore, integer overflow is undefined).")})
S.update({"C119": ("partial", "Proved: C119_flood_all, C119_flood_limited_partial, C119_flood_usage, C119_has, C119_has_flood, C119_mask, C119_breach_complete, C119_breach_complete_ignores, C119_breach_unlimited, C119_breach_options, C119_breach_eps_int (integer rasters with NoData below the data), C119_number (numbers below 2^32), C119_depth_int and C119_depth_fits (truncating a depth limit to an integer type changes no decision while it fits), C119_next_int (what nextafter does to integers). Refuted: C119_large_number_refuted, C119_negative_number_refuted, C119_rest_refuted and C119_limit_text_refuted (sizes wrap modulo 2^32 and are cut at the first non-digit), C119_small_refuted (not every small depression is flooded), C119_noData_refuted (holes of NoData are reported and filled), C119_depth_refuted (a depth limit above the cell type is undefined behaviour), C119_negative_depth_refuted (negative depth limits are rounded towards zero), C119_eps_int_refuted (no gradients on integers that are not positive), C119_eps_noData_refuted (EPS digs data cells to NoData).")})
S.update({"C120": ("partial", "Over the reals (rounding of accumulations is C114/C115). Proved: C120_accumulation, C120_conservation, C120_usage, C120_attribute. Refuted: C120_disabled_refuted (methods 7 to 9 and unknown numbers end with status 0 and write the cell area everywhere, NoData cells included), C120_attribute_unknown_refuted (an unknown attribute writes zeros with status 0), C120_curvature_clash_refuted (a curvature of -1 on a data cell is the NoData value of the output).")})
S.update({"C121": ("partial", "Proved: C121_tree, C121_spill, C121_labels, C121_usage, C121_format, C121_readable. Refuted: C121_georeference_refuted (the raster of labels has the projection of the DEM but no geotransform).")})
S.update({"C122": ("partial", "Proved: C122_directions, C122_tie_order, C122_usage; C122_data_partial when no elevation is below the NoData value (then 255 stands exactly where NoData cells lead to the edge); C122_north_up_partial. Refuted: C122_noData_cell_refuted (an enclosed NoData cell below the data is filled and gets a direction), C122_data_cell_refuted (with a high NoData value enclosed data are filled up to it and lost), C122_south_up_refuted (a loop), C122_west_refuted (undefined behaviour).")})
S.update({"C123": ("partial", "Proved: C123_timer_protocol, C123_timer_sum, C123_timer_nonneg, C123_no_failure (positive totals), C123_stop, C123_counted (what thread 0 reports); C123_shown_partial and C123_increasing_partial when the hundredfold work fits 32 bits. Refuted: C123_zero_refuted and C123_stale_refuted (a total of zero, which a stale data cell count gives, is divided by), C123_after_stop_refuted, C123_overflow_refuted, C123_hundred_refuted (401 cells end at 99 percent), C123_threads_refuted (only the reports of one thread are counted), C123_serial_refuted (nothing is shown or counted without OpenMP).")})
S.update({"C124": ("partial", "Proved: C124_layout; C124_display_partial when the view need not be mirrored and all cells fit an int, C124_aligned_partial (numbers of at most six characters), C124_usage_partial. Refuted: C124_mirror_refuted (fliph, and columns that run west, are undefined behaviour), C124_int_refuted (a cell beyond the range of int is undefined behaviour), C124_truncated_refuted (cells are truncated). An unknown directive ends with status 0 (in C124_usage_partial).")})
S.update({"C125": ("partial", "Proved: C125_indices; C125_flows (any field width, by the position in the line), C125_flows_partial (fields of at least two characters, by words); C125_block_partial when the ends of the block are ints (columns and rows from radius before to radius - 1 after the centre). Refuted: C125_centred_refuted (the block lacks the columns east and rows south at distance radius), C125_radius_refuted (a huge radius overflows), C125_flows_refuted (fields of one character run together).")})
