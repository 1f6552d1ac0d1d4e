{
 "claims": [
  {
   "property": "C01",
   "status": "proved",
   "theorems": [
    "RichDEM.C01_index_bijection",
    "RichDEM.C01_index_injective",
    "RichDEM.C01_index_uint32",
    "RichDEM.C01_uint32_wraps_at_2_32"
   ],
   "note": "Index arithmetic over unbounded ints; uint32 version proved equal under width*height<2^32, wrap-around beyond that exhibited."
  },
  {
   "property": "C02",
   "status": "proved",
   "theorems": [
    "RichDEM.C02_nToI",
    "RichDEM.C02_getN",
    "RichDEM.C02_getN_complete",
    "RichDEM.C02_nshift",
    "RichDEM.C02_interior"
   ],
   "note": "getN/nToI/nshift/isEdgeCell."
  },
  {
   "property": "C03",
   "status": "proved",
   "theorems": [
    "RichDEM.C03_directions",
    "RichDEM.C03_inverse",
    "RichDEM.C03_diag",
    "RichDEM.C03_arcgis_roundtrip",
    "RichDEM.C03_arcgis_reject",
    "RichDEM.C03_arcgis_reject_all"
   ],
   "note": "Direction tables and ArcGIS conversion."
  },
  {
   "property": "C04",
   "status": "proved",
   "theorems": [
    "RichDEM.C04_original_is_fill",
    "RichDEM.C04_fill_unique"
   ],
   "note": "For every heap (PQ) and linear order; NaN excluded."
  },
  {
   "property": "C05",
   "status": "proved",
   "theorems": [
    "RichDEM.C05_barnes_is_fill",
    "RichDEM.C05_barnes_eq_original"
   ],
   "note": "For every heap (PQ) and linear order; NaN excluded."
  },
  {
   "property": "C06",
   "status": "proved",
   "theorems": [
    "RichDEM.C06_never_lowers",
    "RichDEM.C06_levels_come_from_input"
   ],
   "note": "Original and Barnes2014; epsilon variant in C10."
  },
  {
   "property": "C07",
   "status": "proved",
   "theorems": [
    "RichDEM.C07_filled_drains",
    "RichDEM.C07_hasDepressions_iff",
    "RichDEM.C07_hasDepressions_iff_changes",
    "RichDEM.C07_filled_has_none"
   ],
   "note": "HasDepressions iff not Drained iff filling changes a cell."
  },
  {
   "property": "C08",
   "status": "proved",
   "theorems": [
    "RichDEM.C08_idempotent",
    "RichDEM.C08_monotone",
    "RichDEM.C08_D8_le_D4"
   ],
   "note": "Idempotence, monotonicity, D8<=D4."
  },
  {
   "property": "C09",
   "status": "proved",
   "theorems": [
    "RichDEM.C09_original_terminates",
    "RichDEM.C09_barnes_terminates",
    "RichDEM.C09_empty_raster_unsafe"
   ],
   "note": "Termination, iteration count, pit count, access safety for Original and Barnes2014."
  },
  {
   "property": "C10",
   "status": "proved",
   "theorems": [
    "RichDEM.C10_epsilon_drains",
    "RichDEM.C10_above_fill",
    "RichDEM.C10_terminates"
   ],
   "note": "next = std::nextafter(.,+inf) abstracted to any function with z < next z (finite floats)."
  },
  {
   "property": "C11",
   "status": "proved",
   "theorems": [
    "RichDEM.C11_flow_leaves",
    "RichDEM.C11_no_cycle",
    "RichDEM.C11_no_flow_only_nodata",
    "RichDEM.C11_edge_directions"
   ],
   "note": "For every heap; path also stays at or below the water level of its start."
  },
  {
   "property": "C12",
   "status": "proved",
   "theorems": [
    "RichDEM.C12_labels",
    "RichDEM.C12_elevations"
   ],
   "note": "Under the documented assumption that NoData is not above any elevation."
  },
  {
   "property": "C13",
   "status": "proved",
   "theorems": [
    "RichDEM.C13_pit_mask"
   ],
   "note": "Mask 3 on NoData, 1 iff filling raises the cell."
  },
  {
   "property": "C14",
   "status": "partial",
   "theorems": [
    "RichDEM.C14_small_depressions_missed",
    "RichDEM.C14_large_untouched_partial",
    "RichDEM.C14_unlimited_is_fill",
    "RichDEM.C14_zero_is_identity"
   ],
   "note": "Documented claim refuted (C14_small_depressions_missed). Proved: larger depressions untouched, all-or-nothing per depression, unlimited = full fill."
  },
  {
   "property": "C15",
   "status": "proved",
   "theorems": [
    "RichDEM.C15_zhou_is_fill",
    "RichDEM.C15_zhou_typo_harmless",
    "RichDEM.C15_wei_safe",
    "RichDEM.C15_wei_nodata",
    "RichDEM.C15_wei_is_fill",
    "RichDEM.C15_fillDepressions_is_fill",
    "RichDEM.C15_all_equal",
    "RichDEM.C15_wei_nodata_differs"
   ],
   "note": "For every heap (order of equal elevations). Includes: Zhou2016's d8x[n]/d8x[nn] slip cannot change the result; Wei2018's unchecked accesses stay inside the raster; with NoData Wei2018 is specified separately (C15_wei_nodata) and differs from the others (C15_wei_nodata_differs)."
  },
  {
   "property": "C16",
   "status": "proved",
   "theorems": [
    "RichDEM.C16_interior",
    "RichDEM.C16_edge",
    "RichDEM.C16_noData",
    "RichDEM.C16_noData_drains"
   ],
   "note": "Any linear order of elevations (no NaN); NoData-neighbour behaviour under the documented assumption that NoData is below all data."
  },
  {
   "property": "C17",
   "status": "partial",
   "theorems": [
    "RichDEM.C17_metric",
    "RichDEM.C17_one_unit",
    "RichDEM.C17_d8_consistent",
    "RichDEM.C17_d4_misdirected",
    "RichDEM.C17_d4_uphill"
   ],
   "note": "Metric proved for both topologies; D8 consistency with FlowAccumulation proved; refuted for D4 (slots are read as D8 directions)."
  },
  {
   "property": "C18",
   "status": "proved",
   "theorems": [
    "RichDEM.C18_noData",
    "RichDEM.C18_edge",
    "RichDEM.C18_proportional",
    "RichDEM.C18_distribution",
    "RichDEM.C18_freeman",
    "RichDEM.C18_holmgren",
    "RichDEM.C18_quinn",
    "RichDEM.C18_single"
   ],
   "note": "Exact arithmetic: any ordered field for the distribution, the reals for the powers; rounding not modelled."
  },
  {
   "property": "C19",
   "status": "partial",
   "theorems": [
    "RichDEM.C19_proportions",
    "RichDEM.C19_proportions_reversed",
    "RichDEM.C19_two_adjacent",
    "RichDEM.C19_noFlow_iff",
    "RichDEM.C19_shares_reversed",
    "RichDEM.C19_reversed_example"
   ],
   "note": "FM_Tarboton over the reals: at most two adjacent receivers, shares sum to one, only lower neighbours. Refuted for FM_Tarboton and for area_proportion: the two shares are swapped (the nearer neighbour gets the smaller share), for every angle."
  },
  {
   "property": "C20",
   "status": "proved",
   "theorems": [
    "RichDEM.C20_terminates",
    "RichDEM.C20_noData",
    "RichDEM.C20_upstream_sum",
    "RichDEM.C20_order_independent",
    "RichDEM.C20_mass_balance",
    "RichDEM.C20_conservation",
    "RichDEM.C20_cycle_unprocessed"
   ],
   "note": "Exact arithmetic over any ordered commutative ring; every queue order; edge cells silent (true of all metrics)."
  },
  {
   "property": "C21",
   "status": "proved",
   "theorems": [
    "RichDEM.C21_terminates",
    "RichDEM.C21_counts_upstream",
    "RichDEM.C21_cycles",
    "RichDEM.C21_noData",
    "RichDEM.C21_loops_never_reported",
    "RichDEM.C21_d8_directions_acyclic"
   ],
   "note": "Every direction raster, cyclic included, every queue order; the loop report is shown to be always zero."
  },
  {
   "property": "C22",
   "status": "partial",
   "theorems": [
    "RichDEM.C22_flood_exact",
    "RichDEM.C22_line_symm",
    "RichDEM.C22_point",
    "RichDEM.C22_horizontal",
    "RichDEM.C22_gentle_line",
    "RichDEM.C22_upslope_partial",
    "RichDEM.C22_single_cell",
    "RichDEM.C22_vertical_line_lost",
    "RichDEM.C22_steep_line_lost",
    "RichDEM.C22_diagonal_overrun"
   ],
   "note": "The flood is exact for every direction raster and set of starting cells; the line of starting cells is right for points, horizontal and gentle lines; refuted for vertical, steep and overrunning lines."
  },
  {
   "property": "C23",
   "status": "proved",
   "theorems": [
    "RichDEM.C23_classify",
    "RichDEM.C23_reads_in_grid",
    "RichDEM.C23_edges"
   ],
   "note": "FindFlats and FindFlatEdges, for every raster; queue order unspecified (OpenMP critical)."
  },
  {
   "property": "C24",
   "status": "proved",
   "theorems": [
    "RichDEM.C24_labelled",
    "RichDEM.C24_same_label",
    "RichDEM.C24_index_in_range",
    "RichDEM.C24_drainable"
   ],
   "note": "For every order of the edge queues."
  },
  {
   "property": "C25",
   "status": "proved",
   "theorems": [
    "RichDEM.C25_distances",
    "RichDEM.C25_zero_elsewhere",
    "RichDEM.C25_descends",
    "RichDEM.C25_leads_out"
   ],
   "note": "For every order of the edge queues; exact mask values as graph distances."
  },
  {
   "property": "C26",
   "status": "partial",
   "theorems": [
    "RichDEM.C26_epsilon_only",
    "RichDEM.C26_epsilon_amount",
    "RichDEM.C26_epsilon_drains",
    "RichDEM.C26_epsilon_no_new_pits",
    "RichDEM.C26_epsilon_makes_pits",
    "RichDEM.C26_integer_lowers",
    "RichDEM.C26_flowdirs_out_of_bounds",
    "RichDEM.C26_flowdirs_corrupts",
    "RichDEM.C26_flowdirs_partial",
    "RichDEM.C26_integer_unresolved"
   ],
   "note": "Epsilon: proved for every raster (nextafter abstracted to any strictly increasing step); 'creates no pits' holds only under a gap hypothesis, refuted otherwise; integer elevations are lowered instead of raised (refuted: numeric_limits<int>::infinity() is 0). Flow directions: refuted for non-square rasters (out-of-bounds) and for pits (slot -1 write); proved for square rasters without such pits."
  },
  {
   "property": "C27",
   "status": "proved",
   "theorems": [
    "RichDEM.C27_sameSet_iff_linked",
    "RichDEM.C27_findSet_representative",
    "RichDEM.C27_unknown_element_throws",
    "RichDEM.C27_maxElement",
    "RichDEM.C27_makeSet_max_id_loses_all_sets"
   ],
   "note": "All histories of makeSet/unionSet/findSet/sameSet; ids below 2^32-1 (makeSet(2^32-1) shown to empty the structure)."
  },
  {
   "property": "C28",
   "status": "proved",
   "theorems": [
    "RichDEM.C28_mergeAintoB",
    "RichDEM.C28_merge_creates",
    "RichDEM.C28_merge_cycle_findSet_never_returns",
    "RichDEM.C28_merge_nonroot_splits_set"
   ],
   "note": "On representatives, in every reachable structure; misuse shown to corrupt (cycle, split)."
  },
  {
   "property": "C29",
   "status": "partial",
   "theorems": [
    "RichDEM.C29_lru_sorted_by_last_use",
    "RichDEM.C29_back_is_least_recently_used",
    "RichDEM.C29_pop_back",
    "RichDEM.C29_prune",
    "RichDEM.C29_insert_partial",
    "RichDEM.C29_reinsert_after_eviction_is_lost",
    "RichDEM.C29_first_insert_may_be_lost"
   ],
   "note": "Order, back, pop_back, prune, size, full proved for all histories. insert proved except when the cache is empty and the key equals the stale `last`; there the documented behaviour is refuted."
  },
  {
   "property": "C30",
   "status": "proved",
   "theorems": [
    "RichDEM.C30_size",
    "RichDEM.C30_push",
    "RichDEM.C30_top",
    "RichDEM.C30_pop",
    "RichDEM.C30_extract",
    "RichDEM.C30_min_key",
    "RichDEM.C30_min_stale_in_radix_heap",
    "RichDEM.C30_least_code_is_least_value"
   ],
   "note": "All monotone histories and key widths, both heaps; radix_heap::min() refuted (stale), pair_radix_heap::min_key proved."
  },
  {
   "property": "C31",
   "status": "proved",
   "theorems": [
    "RichDEM.C31_unsigned",
    "RichDEM.C31_signed",
    "RichDEM.C31_decimal",
    "RichDEM.C31_zeros"
   ],
   "note": "Unsigned, signed (any width), IEEE floats; decode inverts encode on every pattern."
  },
  {
   "property": "C32",
   "status": "proved",
   "theorems": [
    "RichDEM.C32_cell_comparisons",
    "RichDEM.C32_zk_lexicographic",
    "RichDEM.C32_zk_strict_total",
    "RichDEM.C32_queue_deterministic",
    "RichDEM.C32_fifo_breaks_at_2_31"
   ],
   "note": "Cell comparisons equal the linear order with NaN lowest; queue orders are strict total orders and the FIFO/LIFO rule holds below 2^31 insertions (refuted at 2^31)."
  },
  {
   "property": "C33",
   "status": "partial",
   "theorems": [
    "RichDEM.C33_no_memory_error_partial",
    "RichDEM.C33_ownership_partial",
    "RichDEM.C33_copy_independent",
    "RichDEM.C33_assignment_frees_caller_memory",
    "RichDEM.C33_self_move_frees_caller_memory"
   ],
   "note": "Proved for all histories without assignment to a vector that wraps caller memory; refuted with such an assignment and with self-move."
  },
  {
   "property": "C34",
   "status": "partial",
   "theorems": [
    "RichDEM.C34_flipVert",
    "RichDEM.C34_flipVert_twice",
    "RichDEM.C34_flipHorz_out_of_bounds",
    "RichDEM.C34_transpose_square_is_identity",
    "RichDEM.C34_transpose_wrong"
   ],
   "note": "flipVert proved. flipHorz refuted on every non-empty raster (out-of-bounds swap); transpose refuted (identity on squares, wrong cells otherwise)."
  },
  {
   "property": "C35",
   "status": "proved",
   "theorems": [
    "RichDEM.C35_resize",
    "RichDEM.C35_expand",
    "RichDEM.C35_expand_refuses"
   ],
   "note": "resize and expand, owned and wrapped memory; fewer than 2^31 cells."
  },
  {
   "property": "C36",
   "status": "partial",
   "theorems": [
    "RichDEM.C36_setRow_setCol",
    "RichDEM.C36_setEdges",
    "RichDEM.C36_getRow_getCol",
    "RichDEM.C36_counts",
    "RichDEM.C36_numDataCells_stale",
    "RichDEM.C36_replace_setAll_eq"
   ],
   "note": "setRow/setCol/setEdges/getRowData/getColData/countval/replace/setAll/== proved; numDataCells refuted after an edit (stale cache)."
  },
  {
   "property": "C37",
   "status": "partial",
   "theorems": [
    "RichDEM.C37_round_trip_partial",
    "RichDEM.C37_dump_load_partial",
    "RichDEM.C37_no_geotransform",
    "RichDEM.C37_saving_offloaded"
   ],
   "note": "Round trip proved for every consistent raster with a geotransform and fewer than 2^32 cells, and dumpData/loadData; refuted for rasters without geotransform (out-of-bounds read)."
  },
  {
   "property": "C38",
   "status": "partial",
   "theorems": [
    "RichDEM.C38_truncation_not_detected",
    "RichDEM.C38_never_reports",
    "RichDEM.C38_wrong_contents"
   ],
   "note": "Refuted for every crash point after the header: the load never reports an error and fills the missing cells with T()."
  },
  {
   "property": "C39",
   "status": "partial",
   "theorems": [
    "RichDEM.C39_round_trip_partial",
    "RichDEM.C39_blank_column_lost",
    "RichDEM.C39_iteration",
    "RichDEM.C39_single_blank"
   ],
   "note": "Round trip and row-major iteration proved; refuted when every row ends in a null tile (last column lost)."
  },
  {
   "property": "C40",
   "status": "partial",
   "theorems": [
    "RichDEM.C40_base_name_partial",
    "RichDEM.C40_period_in_directory",
    "RichDEM.C40_witness"
   ],
   "note": "Proved when the file name itself has a period or the path has none; refuted for every other path (empty result)."
  },
  {
   "property": "C41",
   "status": "partial",
   "theorems": [
    "RichDEM.C41_like_one_raster_partial",
    "RichDEM.C41_from_dims",
    "RichDEM.C41_same_cache_file",
    "RichDEM.C41_cache_size_zero",
    "RichDEM.C41_stale_pointer"
   ],
   "note": "Refinement to one big raster and residency bound proved for template-built writable rasters, all histories and cache sizes; refuted for dimension-built rasters, equal base names, cache size 0 and an unlucky uninitialised LRU::last."
  },
  {
   "property": "C42",
   "status": "proved",
   "theorems": [
    "RichDEM.C42_exact",
    "RichDEM.C42_fresh",
    "RichDEM.C42_from_edges"
   ],
   "note": "BucketFill from a seed and from the edges, for every raster; the depth-first order is covered by an arbitrary work-list order."
  },
  {
   "property": "C43",
   "status": "proved",
   "theorems": [
    "RichDEM.C43_marginal",
    "RichDEM.C43_volumes",
    "RichDEM.C43_children_le"
   ],
   "note": "Exact arithmetic (any ordered commutative ring); every split of the cells among threads and every merge order. The ocean's own volume (0*infinity in the code) is left unspecified."
  },
  {
   "property": "C44",
   "status": "proved",
   "theorems": [
    "RichDEM.C44_conserved",
    "RichDEM.C44_returns"
   ],
   "note": "Exact arithmetic. For every hierarchy the builder can return and every placement of water: no assertion or exception, the recursion ends (at most 2n nested calls), levels within capacity, total conserved up to eps=1e-6 per depression (dropped by fp_eq)."
  },
  {
   "property": "C45",
   "status": "proved",
   "theorems": [
    "RichDEM.C45_level",
    "RichDEM.C45_level_exact",
    "RichDEM.C45_level_between",
    "RichDEM.C45_assert_refuted"
   ],
   "note": "Exact arithmetic (any ordered field), tolerance eps of fp_eq explicit. Also proved: the exact assertion fill_amount<=-sill_wtd can fail within the tolerance the caller allows."
  },
  {
   "property": "C46",
   "status": "proved",
   "theorems": [
    "RichDEM.C46_drained",
    "RichDEM.C46_lowers",
    "RichDEM.C46_eps_drained"
   ],
   "note": "Both topologies, every heap order, NoData. Elevations a linear order. eps_gradients variant also proved (C46_eps_drained)."
  },
  {
   "property": "C47",
   "status": "partial",
   "theorems": [
    "RichDEM.C47_cell_count_partial",
    "RichDEM.C47_nodata_ignored",
    "RichDEM.C47_square_edges",
    "RichDEM.C47_square_length"
   ],
   "note": "CELL_COUNT proved for NoData-free rasters; refuted when a cell borders NoData (interior NoData neighbours are not counted). SQUARE_EDGE proved."
  },
  {
   "property": "C48",
   "status": "proved",
   "theorems": [
    "RichDEM.C48_window",
    "RichDEM.C48_shift",
    "RichDEM.C48_quadratic",
    "RichDEM.C48_curvature_split",
    "RichDEM.C48_plane",
    "RichDEM.C48_slope_range",
    "RichDEM.C48_slope_units",
    "RichDEM.C48_slope_plane",
    "RichDEM.C48_flat",
    "RichDEM.C48_slope_shift",
    "RichDEM.C48_aspect_range",
    "RichDEM.C48_aspect_direction",
    "RichDEM.C48_aspect_never_minus_one",
    "RichDEM.C48_raster",
    "RichDEM.C48_curvature_nodata_clash"
   ],
   "note": "Exact arithmetic (fields; reals for slope and aspect). Also proved: aspect never is -1 on flat ground although documented so; curvature -1 coincides with the default NoData value of the output."
  },
  {
   "property": "C49",
   "status": "proved",
   "theorems": [
    "RichDEM.C49_parallel_is_fill",
    "RichDEM.C49_equals_sequential",
    "RichDEM.C49_cover"
   ],
   "note": "Any raster, block size, pattern of mirrored tiles, heap orders and arrival order. No missing tiles (see C68). Elevations a linear order; NoData cells count as terrain, as in the program."
  },
  {
   "property": "C50",
   "status": "proved",
   "theorems": [
    "RichDEM.C50_fp_comparisons",
    "RichDEM.C50_fp_eq_not_transitive"
   ],
   "note": "In exact arithmetic over every ordered field."
  },
  {
   "property": "C51",
   "status": "partial",
   "theorems": [
    "RichDEM.C51_nodata_not_kept",
    "RichDEM.C51_nodata_kept_iff_partial"
   ],
   "note": "Refuted for enclosed NoData; exact characterisation proved for Barnes2014 (Original follows by C05)."
  },
  {
   "property": "C52",
   "status": "partial",
   "theorems": [
    "RichDEM.C52_never_overcounts_partial",
    "RichDEM.C52_exclusive_cells_exact_partial",
    "RichDEM.C52_rows_partial",
    "RichDEM.C52_one_thread_exact_partial",
    "RichDEM.C52_race_free_area_partial",
    "RichDEM.C52_lost_update_wrong_area"
   ],
   "note": "False of the code: lost-update interleaving gives a wrong area. Proved for every schedule: no over-count; exact for cells incremented by one thread only."
  },
  {
   "property": "C53",
   "status": "proved",
   "theorems": [
    "RichDEM.C53_keeps",
    "RichDEM.C53_resolved_iff",
    "RichDEM.C53_direction",
    "RichDEM.C53_values",
    "RichDEM.C53_acyclic",
    "RichDEM.C53_leads_out",
    "RichDEM.C53_depression_free",
    "RichDEM.C53_alter_only",
    "RichDEM.C53_alter_raises",
    "RichDEM.C53_alter_drains",
    "RichDEM.C53_alter_depression_free"
   ],
   "note": "Every raster and queue order, alter=false."
  },
  {
   "property": "C54",
   "status": "proved",
   "theorems": [
    "RichDEM.C54_pipeline",
    "RichDEM.C54_conservation"
   ],
   "note": "Every non-empty raster and NoData placement, exact arithmetic."
  },
  {
   "property": "C55",
   "status": "proved",
   "theorems": [
    "RichDEM.C55_triangle",
    "RichDEM.C55_cell",
    "RichDEM.C55_cell_at_least_planar",
    "RichDEM.C55_total",
    "RichDEM.C55_level_cell",
    "RichDEM.C55_level",
    "RichDEM.C55_shift"
   ],
   "note": "Over the real numbers (rounding not modelled)."
  },
  {
   "property": "C56",
   "status": "partial",
   "theorems": [
    "RichDEM.C56_rho",
    "RichDEM.C56_rho8_factor",
    "RichDEM.C56_rho4_factor",
    "RichDEM.C56_rho4_zero_partial"
   ],
   "note": "Proved for every raster and every non-zero draw; refuted for Rho4 when the generator returns 0."
  },
  {
   "property": "C57",
   "status": "proved",
   "theorems": [
    "RichDEM.C57_acyclic",
    "RichDEM.C57_upstream_sum",
    "RichDEM.C57_conservation",
    "RichDEM.C57_freeman",
    "RichDEM.C57_holmgren",
    "RichDEM.C57_quinn",
    "RichDEM.C57_d8",
    "RichDEM.C57_rho8",
    "RichDEM.C57_tarboton"
   ],
   "note": "Exact arithmetic; every queue order."
  },
  {
   "property": "C58",
   "status": "partial",
   "theorems": [
    "RichDEM.C58_terminates",
    "RichDEM.C58_noData",
    "RichDEM.C58_upstream_sum_partial",
    "RichDEM.C58_zero_dropped",
    "RichDEM.C58_order_independent",
    "RichDEM.C58_angle_range",
    "RichDEM.C58_downhill",
    "RichDEM.C58_acyclic",
    "RichDEM.C58_dem_partial",
    "RichDEM.C58_east_plane_lost"
   ],
   "note": "Proved over the reals for every DEM and queue order, for cells with non-zero angle or with inflow; refuted for cells flowing due east (angle 0 equals NO_FLOW): on every plane falling due east all interior areas are 0."
  },
  {
   "property": "C59",
   "status": "proved",
   "theorems": [
    "RichDEM.C59_error_iff",
    "RichDEM.C59_flow_to_pit",
    "RichDEM.C59_one_pit"
   ],
   "note": "Flood phase; labels are unbounded naturals in the model (uint32 in the code)."
  },
  {
   "property": "C60",
   "status": "proved",
   "theorems": [
    "RichDEM.C60_lowest_pass",
    "RichDEM.C60_ordered"
   ],
   "note": "Outlet database as a map from ordered label pairs."
  },
  {
   "property": "C61",
   "status": "proved",
   "theorems": [
    "RichDEM.C61_succeeds",
    "RichDEM.C61_outlets_exist",
    "RichDEM.C61_binary",
    "RichDEM.C61_parents",
    "RichDEM.C61_drains_to_ocean"
   ],
   "note": "For 2*labels < 2^32; any ascending enumeration of the outlet table."
  },
  {
   "property": "C62",
   "status": "proved",
   "theorems": [
    "RichDEM.C62_spill_elevation",
    "RichDEM.C62_monotone"
   ],
   "note": "Over any linear order of elevations (no NaN)."
  },
  {
   "property": "C63",
   "status": "proved",
   "theorems": [
    "RichDEM.C63_ocean_level"
   ],
   "note": "Over any linear order of elevations (no NaN)."
  },
  {
   "property": "C64",
   "status": "partial",
   "theorems": [
    "RichDEM.C64_values",
    "RichDEM.C64_not_nodata_free"
   ],
   "note": "Values proved over the reals; refuted: the NoData value -1 is attained by data cells for both indices."
  },
  {
   "property": "C65",
   "status": "partial",
   "theorems": [
    "RichDEM.C65_spread",
    "RichDEM.C65_returns_partial",
    "RichDEM.C65_unsaturated_refuted"
   ],
   "note": "Exact arithmetic. Conservation and flatness proved for every run that returns, any water tables. Return proved on saturated ground; refuted on unsaturated ground (the assertion water_vol>=0 fails although there is room)."
  },
  {
   "property": "C66",
   "status": "partial",
   "theorems": [
    "RichDEM.C66_visited_drained_partial",
    "RichDEM.C66_eps_strict",
    "RichDEM.C66_flooding_misses_cells"
   ],
   "note": "Proved for the cells visited before the loop ends; refuted for the others: the loop breaks at the last pit and the flooding then dams up unvisited cells (C66_flooding_misses_cells)."
  },
  {
   "property": "C67",
   "status": "partial",
   "theorems": [
    "RichDEM.C67_retain_partial",
    "RichDEM.C67_cache_fails",
    "RichDEM.C67_cache_overwrites"
   ],
   "note": "Proved for tiles kept in memory; refuted for tiles kept on disk: SaveToCache writes labels over the elevations and LoadFromCache reads a file that is never written."
  },
  {
   "property": "C68",
   "status": "partial",
   "theorems": [
    "RichDEM.C68_sound",
    "RichDEM.C68_partial",
    "RichDEM.C68_missed"
   ],
   "note": "Soundness proved everywhere; completeness away from the first two rows and columns, and refuted there."
  },
  {
   "property": "C69",
   "status": "partial",
   "theorems": [
    "RichDEM.C69_admissible_partial",
    "RichDEM.C69_not_nearest",
    "RichDEM.C69_never_divides"
   ],
   "note": "Admissibility proved; nearness refuted (|x-best| instead of |best-selected|)."
  },
  {
   "property": "C70",
   "status": "partial",
   "theorems": [
    "RichDEM.C70_conserved",
    "RichDEM.C70_loop",
    "RichDEM.C70_dry_partial",
    "RichDEM.C70_runoff_partial",
    "RichDEM.C70_saturated_partial",
    "RichDEM.C70_dry_refuted"
   ],
   "note": "Conservation and termination proved for every input; the run-off characterisation needs that nothing flows into cell (0,0), or that it is an end point of flow with its water table at the ground (C70_dry_refuted shows the documented postcondition fails otherwise)."
  },
  {
   "property": "C71",
   "status": "partial",
   "theorems": [
    "RichDEM.C71_returns_partial",
    "RichDEM.C71_conserved_partial",
    "RichDEM.C71_in_depressions_partial",
    "RichDEM.C71_still_partial",
    "RichDEM.C71_unsaturated_refuted",
    "RichDEM.C71_unsaturated_overflow_refuted",
    "RichDEM.C71_corner_refuted",
    "RichDEM.C71_corner_assert_refuted"
   ],
   "note": "Proved for every terrain, hierarchy and water on saturated ground, provided nothing flows into cell (0,0) or (0,0) is an end point of flow without water of its own; C71_unsaturated_refuted, C71_unsaturated_overflow_refuted and C71_corner_refuted show that the claim fails otherwise."
  },
  {
   "property": "C72",
   "status": "proved",
   "theorems": [
    "RichDEM.C72_flood"
   ],
   "note": "Refinement of the radix heap by a stack for every sequence of calls; the flood phase with the heap equals the flood phase with the stack."
  },
  {
   "property": "C73",
   "status": "proved",
   "theorems": [
    "RichDEM.C73_flat",
    "RichDEM.C73_volumes",
    "RichDEM.C73_fifo_refuted",
    "RichDEM.C73_terrace_refuted"
   ],
   "note": "Stack-discipline invariant of the flood; C73_fifo_refuted and C73_terrace_refuted show that the order of equal elevations and the absence of lower neighbours are needed."
  },
  {
   "property": "C74",
   "status": "partial",
   "theorems": [
    "RichDEM.C74_equals_sequential_partial",
    "RichDEM.C74_counts_upstream_partial",
    "RichDEM.C74_cycle_throws",
    "RichDEM.C74_one_row_refuted",
    "RichDEM.C74_corner_refuted"
   ],
   "note": "Proved for every acyclic direction raster and tiling with at least two rows in every tile, at most 65526 perimeter cells per tile and no two tiles touching at a corner only; C74_one_row_refuted, C75_large_refuted and C74_corner_refuted show that the program fails otherwise. Cyclic paths reached from the perimeter throw (C74_cycle_throws)."
  },
  {
   "property": "C75",
   "status": "partial",
   "theorems": [
    "RichDEM.C75_numbering",
    "RichDEM.C75_perimeter",
    "RichDEM.C75_one_column_refuted",
    "RichDEM.C75_large_refuted"
   ],
   "note": "Bijection and perimeter listing proved for all tiles of at least two rows and columns; C75_one_column_refuted and C75_large_refuted show the numbering repeats for one column and does not fit 16 bits for large tiles."
  },
  {
   "property": "C76",
   "status": "partial",
   "theorems": [
    "RichDEM.C76_protocol_partial",
    "RichDEM.C76_completes_partial",
    "RichDEM.C76_probe_race_refuted",
    "RichDEM.C76_priority_flood_partial",
    "RichDEM.C76_flow_accum_partial"
   ],
   "note": "Proved for one consumer, or any number of consumers when all first-round results have the same size; C76_probe_race_refuted shows that CommRecv, which probes and receives with MPI_ANY_SOURCE, can otherwise receive a longer message than it made room for. MPI is modelled as reliable first-in-first-out channels of unbounded length."
  },
  {
   "property": "C77",
   "status": "proved",
   "theorems": [
    "RichDEM.C77_resolved_iff",
    "RichDEM.C77_codes",
    "RichDEM.C77_never_uphill",
    "RichDEM.C77_no_loops",
    "RichDEM.C77_drains",
    "RichDEM.C77_edges",
    "RichDEM.C77_steepest",
    "RichDEM.C77_no_warning"
   ],
   "note": "Any raster, tiling and choice of tiles without data. Elevations a linear order; the tile cache is transparent (its own claim); flips not modelled."
  },
  {
   "property": "C78",
   "status": "partial",
   "theorems": [
    "RichDEM.C78_reads",
    "RichDEM.C78_reads_inside",
    "RichDEM.C78_towards_lower",
    "RichDEM.C78_towards_lower_ends",
    "RichDEM.C78_away_from_higher",
    "RichDEM.C78_away_from_higher_ends",
    "RichDEM.C78_depression_hangs",
    "RichDEM.C78_plateau_hangs",
    "RichDEM.C78_raised",
    "RichDEM.C78_resolves_partial",
    "RichDEM.C78_direction_partial",
    "RichDEM.C78_resolves_refuted",
    "RichDEM.C78_ends_refuted",
    "RichDEM.C78_new_pit_refuted"
   ],
   "note": "Both gradients are proved exact for all rasters, and each loop's termination is characterised. C78_resolves_refuted: the gradients can cancel, leaving a cell without direction; C78_new_pit_refuted: raising a flat can block a cell that drained; C78_ends_refuted and the two hang theorems: the loops never end on a level raster or with a depression. Exact arithmetic: for integer rasters the code's increments truncate to nothing."
  },
  {
   "property": "C79",
   "status": "partial",
   "theorems": [
    "RichDEM.C79_last_layer",
    "RichDEM.C79_integer_refuted"
   ],
   "note": "Proved for floating-point elevations. C79_integer_refuted: for integer elevations numeric_limits::infinity() is 0, so LastLayer throws at any cell that drains to the ocean and is not below zero."
  },
  {
   "property": "C80",
   "status": "proved",
   "theorems": [
    "RichDEM.C80_succeeds_iff",
    "RichDEM.C80_same_neighbour",
    "RichDEM.C80_only_raster",
    "RichDEM.C80_data_stay_data",
    "RichDEM.C80_involution",
    "RichDEM.C80_nodata_refuted"
   ],
   "note": "C80_nodata_refuted shows the hypothesis on the NoData value is needed: with NoData 5, a cell flowing east becomes NoData."
  },
  {
   "property": "C81",
   "status": "partial",
   "theorems": [
    "RichDEM.C81_reports_long_paths",
    "RichDEM.C81_loops_reported_partial",
    "RichDEM.C81_reported_partial",
    "RichDEM.C81_narrow_refuted",
    "RichDEM.C81_false_alarm_refuted"
   ],
   "note": "Proved: on rasters ten or more columns wide a closed report is printed exactly for the paths of at least `width` steps, hence for every loop. Refuted otherwise: C81_narrow_refuted (nothing is ever printed on rasters narrower than ten columns, because of an unsigned wrap-around) and C81_false_alarm_refuted (a long path that ends is reported as a loop)."
  },
  {
   "property": "C82",
   "status": "partial",
   "theorems": [
    "RichDEM.C82_north_up_partial",
    "RichDEM.C82_south_up_partial",
    "RichDEM.C82_south_up_refuted"
   ],
   "note": "Proved for north-up rasters. For south-up rasters (geotransform[5]>0) the tool flips the result back without exchanging north and south in the codes: C82_south_up_refuted gives a two-cell loop on a plain slope, and C82_south_up_partial proves that exchanging them would repair it. geotransform[1]<0 runs into flipHorz, which is undefined behaviour (C34)."
  },
  {
   "property": "C83",
   "status": "partial",
   "theorems": [
    "RichDEM.C83_resize",
    "RichDEM.C83_read_write",
    "RichDEM.C83_flat_addressing",
    "RichDEM.C83_bijection",
    "RichDEM.C83_slot_nine_refuted",
    "RichDEM.C83_isNoData",
    "RichDEM.C83_uninitialised_refuted",
    "RichDEM.C83_eq_partial",
    "RichDEM.C83_eq_noData_refuted",
    "RichDEM.C83_eq_cleared_refuted",
    "RichDEM.C83_count_refuted",
    "RichDEM.C83_count_low_refuted",
    "RichDEM.C83_count_partial",
    "RichDEM.C83_wrap_refuted",
    "RichDEM.C83_wrap_partial"
   ],
   "note": "Addressing, independence, bounds and the NoData test are proved. Refuted by concrete witnesses: numDataCells counts the first width*height numbers instead of the cells (C83_count_refuted, C83_count_low_refuted); == ignores the NoData value and overruns a cleared raster (C83_eq_noData_refuted, C83_eq_cleared_refuted); the NoData value is read uninitialised before setNoData (C83_uninitialised_refuted); the index assertion admits slot 9, which is the next cell's slot 0; wrapping a caller's array of 2^31/9 cells or more overflows an int (C83_wrap_refuted)."
  },
  {
   "property": "C84",
   "status": "partial",
   "theorems": [
    "RichDEM.C84_noise_eq",
    "RichDEM.C84_gradients",
    "RichDEM.C84_range_partial",
    "RichDEM.C84_lattice",
    "RichDEM.C84_period",
    "RichDEM.C84_continuous",
    "RichDEM.C84_terrain",
    "RichDEM.C84_refTable",
    "RichDEM.C84_unit_range_refuted"
   ],
   "note": "Everything is proved except the range: heights are proved to lie in [-1/4, 5/4], and C84_unit_range_refuted exhibits a permutation with a height of 1.008688 in a 20x20 raster. Exact arithmetic; std::shuffle is replaced by an arbitrary permutation."
  },
  {
   "property": "C85",
   "status": "partial",
   "theorems": [
    "RichDEM.C85_keeps",
    "RichDEM.C85_receivers",
    "RichDEM.C85_range",
    "RichDEM.C85_has_receiver",
    "RichDEM.C85_unresolved",
    "RichDEM.C85_acyclic",
    "RichDEM.C85_upslope_acyclic",
    "RichDEM.C85_terminates",
    "RichDEM.C85_leaves_flat",
    "RichDEM.C85_right_edge_refuted",
    "RichDEM.C85_east_overwritten_refuted"
   ],
   "note": "Proved with 'has an angle' read as the code reads it (angle other than 0). C85_right_edge_refuted and C85_east_overwritten_refuted show what that costs: a flat that drains over the right edge only stays unresolved and, read as an angle, flows uphill; and a cell whose steepest descent is due east loses its downhill direction. Exact real arithmetic, angles in units of \u03c0/4."
  },
  {
   "property": "C86",
   "status": "partial",
   "theorems": [
    "RichDEM.C86_window",
    "RichDEM.C86_whole",
    "RichDEM.C86_loads_iff",
    "RichDEM.C86_sound",
    "RichDEM.C86_zero_size_refuted",
    "RichDEM.C86_exact",
    "RichDEM.C86_save_load",
    "RichDEM.C86_bad_geotransform",
    "RichDEM.C86_tile_place",
    "RichDEM.C86_default_offset_refuted",
    "RichDEM.C86_padding",
    "RichDEM.C86_LoadGDAL_agrees",
    "RichDEM.C86_SaveGDAL",
    "RichDEM.C86_strip_refuted",
    "RichDEM.C86_padded_block_partial",
    "RichDEM.C86_rotated_refuted"
   ],
   "note": "Proved: which windows load (iff), what they contain, the round trip, the frame, and the exact condition for a tile to keep its place. Refuted: size 0 does not mean 'to the edge' from a non-zero offset (always throws); 'exact' refuses interior tiles (C86_exact); a padded save keeps the padded size and writes the block to the corner; rotated rasters are displaced; a window saved with the default offsets is displaced. GDAL itself, type conversion through double and float rounding are not modelled."
  },
  {
   "property": "C87",
   "status": "partial",
   "theorems": [
    "RichDEM.C87_metadata_lost_refuted",
    "RichDEM.C87_empty_list_refuted",
    "RichDEM.C87_save_appends",
    "RichDEM.C87_file_items",
    "RichDEM.C87_history",
    "RichDEM.C87_chain_refuted",
    "RichDEM.C87_unspecified_refuted",
    "RichDEM.C87_SaveGDAL_history",
    "RichDEM.C87_SaveGDAL_items"
   ],
   "note": "Proved for one raster in memory: every sequence of saves accumulates the history in order and keeps other items. Refuted for files: ProcessMetadata's loop runs while the entry IS null, so every file's metadata is lost on loading, a list without entries is undefined behaviour, no history accumulates over any chain of programs, and saveGDAL never writes 'Unspecified Operation'."
  },
  {
   "property": "C88",
   "status": "partial",
   "theorems": [
    "RichDEM.C88_unified_partial",
    "RichDEM.C88_first_null_refuted",
    "RichDEM.C88_setNoData_refuted",
    "RichDEM.C88_tile_by_tile_refuted"
   ],
   "note": "Proved for writable rasters whose first tile is not null and whose tiles agree on NoData. Refuted: a null first tile, or setNoData with another value while there are null tiles, makes saving throw; tile-by-tile saving passes the literal 0 as a std::string and always throws."
  },
  {
   "property": "C89",
   "status": "partial",
   "theorems": [
    "RichDEM.C89_error_iff",
    "RichDEM.C89_saves_partial",
    "RichDEM.C89_conserved_partial",
    "RichDEM.C89_no_new_water_partial",
    "RichDEM.C89_water_partial",
    "RichDEM.C89_still_partial",
    "RichDEM.C89_surface_partial",
    "RichDEM.C89_nodata_drains_partial",
    "RichDEM.C89_nodata_lost_refuted",
    "RichDEM.C89_nodata_wall_refuted",
    "RichDEM.C89_corner_refuted",
    "RichDEM.C89_unsaturated_refuted"
   ],
   "note": "Proved for saturated ground (no negative water on land) and a top-left cell that is ocean or higher than its neighbours. Both conditions are needed (C89_corner_refuted, C89_unsaturated_refuted). The NoData clauses are false: a NoData cell is saved as 0, not NoData (C89_nodata_lost_refuted), and when the NoData value lies above the terrain it is a wall, not an outlet (C89_nodata_wall_refuted); when it does not, it drains its neighbours (C89_nodata_drains_partial). Arithmetic is exact (ordered field), tolerance eps as in fp_eq."
  },
  {
   "property": "C90",
   "status": "partial",
   "theorems": [
    "RichDEM.C90_full_path",
    "RichDEM.C90_writer_name_partial",
    "RichDEM.C90_same_directory_partial",
    "RichDEM.C90_directory_lost_refuted",
    "RichDEM.C90_location_names"
   ],
   "note": "Refuted for names without an extension below a directory with a period in its name: the directory is cut at the period (C90_directory_lost_refuted). POSIX separators."
  },
  {
   "property": "C91",
   "status": "partial",
   "theorems": [
    "RichDEM.C91_not_in_place",
    "RichDEM.C91_in_place_partial",
    "RichDEM.C91_in_place_view_refuted",
    "RichDEM.C91_fill_empty_refuted",
    "RichDEM.C91_raises",
    "RichDEM.C91_fill_not_in_place",
    "RichDEM.C91_fill_in_place_partial",
    "RichDEM.C91_fill_epsilon",
    "RichDEM.C91_breach_not_in_place",
    "RichDEM.C91_weights_refuted",
    "RichDEM.C91_accumulation_partial",
    "RichDEM.C91_accumulation_view_refuted",
    "RichDEM.C91_no_data_fraction",
    "RichDEM.C91_no_data_int",
    "RichDEM.C91_no_data_float_partial",
    "RichDEM.C91_no_data_float_int",
    "RichDEM.C91_no_data_refuted",
    "RichDEM.C91_proportions_refuted",
    "RichDEM.C91_perlin_metadata",
    "RichDEM.C91_proportions_partial"
   ],
   "note": "The in_place=False half is proved in full for the three DEM functions, with the filled/breached result. Refuted: in_place=True (and every FlowAccumulation) on an array that is not C-contiguous works on memory already freed (C91_in_place_view_refuted, C91_accumulation_view_refuted); weights are overwritten although in_place=False (C91_weights_refuted); no_data goes through single precision, so NoData cells of a double raster are taken for data (C91_no_data_refuted); FlowProportions raises on every generated terrain (C91_proportions_refuted). The rest is proved for contiguous arrays and for integer or whole-number no_data. NumPy and pybind11 behave as stated in Py/Model.lean; finite values only."
  },
  {
   "property": "C92",
   "status": "partial",
   "theorems": [
    "RichDEM.C92_types",
    "RichDEM.C92_step_partial",
    "RichDEM.C92_rain_partial",
    "RichDEM.C92_new_labels",
    "RichDEM.C92_sizes_refuted",
    "RichDEM.C92_hierarchy_sizes_refuted",
    "RichDEM.C92_hierarchy_types",
    "RichDEM.C92_metadata",
    "RichDEM.C92_hierarchy",
    "RichDEM.C92_deps_refuted",
    "RichDEM.C92_corner_refuted",
    "RichDEM.C92_direction_range_refuted"
   ],
   "note": "Proved for arrays that are C-contiguous with memory of their own, saturated ground (no negative water table; C71 refutes the rest), and either no land beside (0,0) at or above its height or no rain on an ocean cell (0,0). Refuted: with rain on the ocean cell (0,0) the ocean stays wet (C92_corner_refuted); the Python list of depressions never learns the water volumes (C92_deps_refuted); flow directions go up to 8, not 7 (C92_direction_range_refuted); arrays of different sizes are not rejected (C92_sizes_refuted, C92_hierarchy_sizes_refuted). Exact arithmetic."
  },
  {
   "property": "C93",
   "status": "partial",
   "theorems": [
    "RichDEM.C93_pit",
    "RichDEM.C93_selective",
    "RichDEM.C93_zero",
    "RichDEM.C93_unlimited",
    "RichDEM.C93_constrained_ignores_length_refuted",
    "RichDEM.C93_constrained_too_deep_refuted",
    "RichDEM.C93_total_depth_refuted",
    "RichDEM.C93_constrained_depth_refuted",
    "RichDEM.C93_constrained_length_refuted"
   ],
   "note": "Proved: the selective mode pit by pit and as a whole run, the zero and the unlimited cases. Refuted: repeated cuts lower a cell by more than maxdepth in total (C93_total_depth_refuted); constrained breaching lowers by more than maxdepth (C93_constrained_depth_refuted) and digs paths longer than maxpathlen (C93_constrained_length_refuted)."
  },
  {
   "property": "C94",
   "status": "proved",
   "theorems": [
    "RichDEM.C94_calls",
    "RichDEM.C94_logarithmic",
    "RichDEM.C94_compressed",
    "RichDEM.C94_merge_linear"
   ],
   "note": "Recursion depth is counted in nested calls of findSet. The amortised inverse-Ackermann bound in the comment is not modelled."
  },
  {
   "property": "C95",
   "status": "partial",
   "theorems": [
    "RichDEM.C95_open",
    "RichDEM.C95_reads_partial",
    "RichDEM.C95_sideways_refuted",
    "RichDEM.C95_write_partial",
    "RichDEM.C95_write_lost_refuted",
    "RichDEM.C95_setAll_lost_refuted"
   ],
   "note": "Proved for files that need no sideways flip and for an uninitialised LRU::last that is not by accident a tile (C41_stale_pointer). Refuted: a tile that needs a sideways flip cannot be read (C95_sideways_refuted); assignments and setAll are lost on eviction (C95_write_lost_refuted, C95_setAll_lost_refuted). Files are not changed while open; GDAL not modelled."
  },
  {
   "property": "C96",
   "status": "partial",
   "theorems": [
    "RichDEM.C96_merge_partial",
    "RichDEM.C96_located_partial",
    "RichDEM.C96_blank_refuted",
    "RichDEM.C96_first_blank_refuted",
    "RichDEM.C96_upward_refuted"
   ],
   "note": "Proved for layouts that start with a file, whose NoData values agree (that of a blank is the default -1), files placed as the layout says, north-up, not flipped (C96_located_partial), and cell by cell for vertical flips (C96_merge_partial). Refuted: a layout with a blank and another NoData value than -1 cannot be merged (C96_blank_refuted), nor one that starts with a blank (C96_first_blank_refuted); files whose rows run upwards are turned over but keep their geotransform (C96_upward_refuted)."
  },
  {
   "property": "C97",
   "status": "partial",
   "theorems": [
    "RichDEM.C97_compare",
    "RichDEM.C97_silent_iff",
    "RichDEM.C97_smaller_refuted",
    "RichDEM.C97_order_refuted",
    "RichDEM.C97_geotransform_refuted",
    "RichDEM.C97_types_partial",
    "RichDEM.C97_types_refuted"
   ],
   "note": "Proved for files of the same size (C97_compare, C97_silent_iff) and integer types without a uint32 against a negative value (C97_types_partial). Refuted: a smaller second file is read behind its end (C97_smaller_refuted), a larger one is compared in part and the answer depends on the order (C97_order_refuted), a missing geotransform equals the stand-in (C97_geotransform_refuted), int32 -1 equals uint32 4294967295 (C97_types_refuted). Floating point conversions and NaN not modelled."
  },
  {
   "property": "C98",
   "status": "partial",
   "theorems": [
    "RichDEM.C98_expand",
    "RichDEM.C98_expand_status_refuted",
    "RichDEM.C98_noData_partial",
    "RichDEM.C98_noData_rest_refuted",
    "RichDEM.C98_noData_fraction_refuted",
    "RichDEM.C98_geotransform",
    "RichDEM.C98_projection",
    "RichDEM.C98_history_refuted"
   ],
   "note": "Proved: C98_expand, C98_geotransform, C98_projection; C98_noData_partial for the text of an int. Refuted: a fraction or exponent of the NoData text is dropped (C98_noData_rest_refuted, C98_noData_fraction_refuted); refusing to shrink ends with status 0 (C98_expand_status_refuted); no history is ever shown (C98_history_refuted). std::stod is a parameter; GDAL not modelled."
  },
  {
   "property": "C99",
   "status": "proved",
   "theorems": [
    "RichDEM.C99_histogram"
   ],
   "note": "Rasters of fewer than 2^31 cells, no NaN cells; the line for the NoData value is not modelled."
  },
  {
   "property": "C100",
   "status": "partial",
   "theorems": [
    "RichDEM.C100_centre",
    "RichDEM.C100_centre_outside",
    "RichDEM.C100_radius_refuted",
    "RichDEM.C100_rectangle_partial",
    "RichDEM.C100_rectangle_outside_refuted",
    "RichDEM.C100_mirrored_refuted",
    "RichDEM.C100_flags",
    "RichDEM.C100_arguments"
   ],
   "note": "Proved for views that need not be mirrored: C100_centre, C100_centre_outside, C100_rectangle_partial (rectangle inside the raster), C100_flags, C100_arguments. Refuted: a rectangle that reaches beyond the raster reads outside (C100_rectangle_outside_refuted); a view that has to be mirrored cannot be shown (C100_mirrored_refuted)."
  },
  {
   "property": "C101",
   "status": "proved",
   "theorems": [
    "RichDEM.C101_every_direction",
    "RichDEM.C101_steepest",
    "RichDEM.C101_plane",
    "RichDEM.C101_border",
    "RichDEM.C101_masked",
    "RichDEM.C101_tarboton"
   ],
   "note": "Exact reals; floating point rounding not modelled. FM_Tarboton: the triangle is right, the shares inside it are reversed (C19_shares_reversed); its slope is optimal up to cos(1e-7), the cost of the tolerance in the code."
  },
  {
   "property": "C102",
   "status": "partial",
   "theorems": [
    "RichDEM.C102_largest_partial",
    "RichDEM.C102_last_row_refuted",
    "RichDEM.C102_one_row_refuted",
    "RichDEM.C102_tile_entry",
    "RichDEM.C102_files_partial",
    "RichDEM.C102_check_accepted",
    "RichDEM.C102_check_counts"
   ],
   "note": "The square is proved for rectangular layouts that have a tile outside the last row and the last column; otherwise the tool answers -1 and writes nothing (C102_last_row_refuted, C102_one_row_refuted). ASCII white space; no carriage returns."
  },
  {
   "property": "C103",
   "status": "partial",
   "theorems": [
    "RichDEM.C103_writable_partial",
    "RichDEM.C103_layout_partial"
   ],
   "note": "Proved (C103_writable_partial, C103_layout_partial) under the conditions of C41 and C95: different cache file names, cache size other than 0, template-built or opened from a layout without sideways flips, and an uninitialised LRU::last that is not by accident a tile. Fails otherwise: C41_cache_size_zero, C41_stale_pointer."
  },
  {
   "property": "C104",
   "status": "partial",
   "theorems": [
    "RichDEM.C104_load",
    "RichDEM.C104_load_raises",
    "RichDEM.C104_save",
    "RichDEM.C104_save_raises",
    "RichDEM.C104_round_trip_partial",
    "RichDEM.C104_small_types",
    "RichDEM.C104_round_trip_refuted"
   ],
   "note": "Proved: C104_load, C104_load_raises, C104_save (always Float32: nearest float, ties to even, order kept), C104_save_raises, and the round trip for cells that are single-precision numbers (C104_round_trip_partial; all cells of the 8- and 16-bit types are, C104_small_types). Otherwise false: C104_round_trip_refuted (Int32 16777217 becomes 16777216; a Float64 data cell becomes NoData). Overflow and denormals of single precision, and metadata other than the history, are not modelled."
  },
  {
   "property": "C105",
   "status": "partial",
   "theorems": [
    "RichDEM.C105_fill_tool",
    "RichDEM.C105_no_data_refuted",
    "RichDEM.C105_no_data_bad",
    "RichDEM.C105_gradient_partial",
    "RichDEM.C105_gradient_refuted",
    "RichDEM.C105_breach_tool_refuted",
    "RichDEM.C105_breach_pit_refuted",
    "RichDEM.C105_accum_tool_partial",
    "RichDEM.C105_accum_large_refuted",
    "RichDEM.C105_methods",
    "RichDEM.C105_methods_help_refuted"
   ],
   "note": "Proved: C105_fill_tool (the fill of the input rounded to single precision), C105_gradient_partial (single-precision input), C105_accum_tool_partial, C105_methods. Refuted: C105_breach_tool_refuted (the program never breaches: it saves what it read), C105_gradient_refuted (double precision), C105_accum_large_refuted, C105_no_data_refuted with C105_no_data_bad (undefined for bytes with NoData -9999, UInt32 with 4294967295, ...), C105_methods_help_refuted. The C++ accumulation functions are parameters here (their properties: C17-C21, C56-C58)."
  },
  {
   "property": "C106",
   "status": "partial",
   "theorems": [
    "RichDEM.C106_metadata",
    "RichDEM.C106_difference_partial",
    "RichDEM.C106_integer_refuted",
    "RichDEM.C106_sizes",
    "RichDEM.C106_broadcast_refuted"
   ],
   "note": "Proved: C106_metadata, C106_sizes, and, for same-size rasters of more than one row and column of which one is floating-point, C106_difference_partial (extremes are those of the rounded differences; zero exactly on equality, as rounding never turns a difference into 0). Refuted: C106_integer_refuted (two integer rasters always raise, the format 10.6 is invalid for integers), C106_broadcast_refuted (a single row is broadcast over a larger raster and found equal to it). Not claimed: the mean and the root mean square, NaN, overflow and denormals."
  },
  {
   "property": "C107",
   "status": "partial",
   "theorems": [
    "RichDEM.C107_finishes",
    "RichDEM.C107_d8_directions",
    "RichDEM.C107_dinf_directions",
    "RichDEM.C107_ocallaghan",
    "RichDEM.C107_rho",
    "RichDEM.C107_multiple_flow",
    "RichDEM.C107_tarboton",
    "RichDEM.C107_find_flats",
    "RichDEM.C107_negate",
    "RichDEM.C107_flow_flats",
    "RichDEM.C107_dinf_flow_flats",
    "RichDEM.C107_raise_flats",
    "RichDEM.C107_pit_dependencies",
    "RichDEM.C107_last_layer",
    "RichDEM.C107_attributes",
    "RichDEM.C107_warnings_refuted"
   ],
   "note": "Proved for each loop: C107_d8_directions, C107_dinf_directions, C107_ocallaghan, C107_rho (given the random numbers of each cell), C107_multiple_flow, C107_tarboton, C107_find_flats, C107_negate, C107_flow_flats, C107_dinf_flow_flats, C107_raise_flats (its iterations read cells other threads are raising; the elevations do not depend on what they read), C107_pit_dependencies, C107_last_layer, C107_attributes, and C107_finishes. Refuted: C107_warnings_refuted (the number of inappropriately raised cells that ResolveFlatsEpsilon logs depends on the schedule). Memory is sequentially consistent. The loops whose increments race (D8 accumulation, D-infinity area) are C52 and C108."
  },
  {
   "property": "C108",
   "status": "partial",
   "theorems": [
    "RichDEM.C108_never_overcounts_partial",
    "RichDEM.C108_one_thread_exact_partial",
    "RichDEM.C108_race_free_area_partial",
    "RichDEM.C108_feeds",
    "RichDEM.C108_lost_update_refuted"
   ],
   "note": "False of the code: C108_lost_update_refuted gives a schedule of unprotected increments with which an area is 3 instead of 5. Proved: C108_never_overcounts_partial (a count is never too large), C108_one_thread_exact_partial (a cell fed from the rows of one thread is counted right), C108_race_free_area_partial (then the areas are those of C58), C108_feeds (the increments are the D-infinity flow edges of C58). Memory is sequentially consistent."
  },
  {
   "property": "C109",
   "status": "partial",
   "theorems": [
    "RichDEM.C109_queues",
    "RichDEM.C109_mask",
    "RichDEM.C109_labels",
    "RichDEM.C109_elevations",
    "RichDEM.C109_label_numbers_refuted"
   ],
   "note": "Proved: C109_queues (the queues hold exactly the edges, each once), C109_mask, C109_labels (equal up to renumbering), C109_elevations. Refuted: C109_label_numbers_refuted (the number a flat gets in the labels raster, which GetFlatMask returns, depends on the schedule), so the statement holds with labels up to renumbering only. The raising of the cells itself is C107_raise_flats."
  },
  {
   "property": "C110",
   "status": "proved",
   "theorems": [
    "RichDEM.C110_seeds",
    "RichDEM.C110_hierarchy",
    "RichDEM.C110_schedule",
    "RichDEM.C110_sort_needed"
   ],
   "note": "C110_seeds (the sorted vectors are exactly the ocean cells next to land and the pits, in increasing order), C110_hierarchy, C110_schedule. C110_sort_needed shows a DEM on which leaving out the sort would make the numbering depend on the schedule. Exceptions thrown inside the parallel region are modelled as an error result (formally the program is terminated). The parallel loop of the marginal volumes is C43, LastLayer C107."
  },
  {
   "property": "C111",
   "status": "partial",
   "theorems": [
    "RichDEM.C111_seed_defined",
    "RichDEM.C111_reproducible_partial",
    "RichDEM.C111_reproducible_normal_partial",
    "RichDEM.C111_threads_differ_partial",
    "RichDEM.C111_seed_ignored_refuted",
    "RichDEM.C111_threads_alike_refuted",
    "RichDEM.C111_many_threads_refuted",
    "RichDEM.C111_normal_refuted",
    "RichDEM.C111_restore_partial",
    "RichDEM.C111_restore_normal_refuted",
    "RichDEM.C111_restore_others_refuted",
    "RichDEM.C111_unit_interval",
    "RichDEM.C111_interval_partial",
    "RichDEM.C111_interval_refuted",
    "RichDEM.C111_rho8",
    "RichDEM.C111_rho_reproducible_partial",
    "RichDEM.C111_rho_seed_refuted",
    "RichDEM.C111_rho_dealing_refuted",
    "RichDEM.C111_rho_threads_refuted"
   ],
   "note": "Proved: seeding is defined for up to 32 threads; uniform numbers (and normal ones if none was kept) depend only on the seed; threads are seeded differently unless the seed is a multiple of 2^28; restoring repeats the uniform numbers of the calling thread; [0,1) for the unit interval and the closed interval otherwise (if its width is a double); Rho8 for all draws and dealings; Rho8/Rho4 reproducible for a fixed dealing. False and refuted by theorems: the seed is multiplied by the thread number, so thread 0 - the whole program when run with one thread - is always seeded with 0 (C111_seed_ignored_refuted, C111_rho_seed_refuted); a seed of 2^32 seeds all threads alike; normal_rand keeps its second number across seeding and restoring; the other threads are not saved; more than 32 threads overrun the array; [1,2) can return 2; the result of Rho8 depends on the dealing of the cells."
  },
  {
   "property": "C112",
   "status": "partial",
   "theorems": [
    "RichDEM.C112_methods",
    "RichDEM.C112_proportions_partial",
    "RichDEM.C112_large_refuted",
    "RichDEM.C112_array_geotransform_refuted",
    "RichDEM.C112_from_props_partial",
    "RichDEM.C112_two_steps_partial",
    "RichDEM.C112_upstream_partial",
    "RichDEM.C112_d8_partial",
    "RichDEM.C112_view_refuted",
    "RichDEM.C112_layers_refuted",
    "RichDEM.C112_weights_refuted"
   ],
   "note": "Proved for C-contiguous arrays with geotransforms that are tuples or missing and fewer than 2^31/9 cells: C112_methods, C112_proportions_partial, C112_from_props_partial, C112_upstream_partial, C112_two_steps_partial, and with the D8 metric end to end C112_d8_partial. Refuted: larger DEMs are undefined behaviour (C112_large_refuted: 9*width*height in int), a geotransform that is a NumPy array raises (C112_array_geotransform_refuted), views and arrays with fewer than nine layers are read out of bounds instead of raising (C112_view_refuted, C112_layers_refuted), weights are overwritten although in_place=False (C112_weights_refuted). The metric is a parameter (its results are C17-C19, C56); accumulation in exact arithmetic."
  },
  {
   "property": "C113",
   "status": "partial",
   "theorems": [
    "RichDEM.C113_names",
    "RichDEM.C113_attribute_partial",
    "RichDEM.C113_view_refuted",
    "RichDEM.C113_curvature_clash_refuted",
    "RichDEM.C113_double_no_data_refuted"
   ],
   "note": "Proved for C-contiguous DEMs: C113_names, C113_attribute_partial (formulas written out in attrSpec; exact arithmetic followed by one conversion to float, a parameter). Refuted: -9999 is also a possible curvature (C113_curvature_clash_refuted), NoData cells of a double DEM whose NoData value is not a single-precision number are given slopes (C113_double_no_data_refuted), views are undefined behaviour (C113_view_refuted)."
  },
  {
   "property": "C114",
   "status": "proved",
   "theorems": [
    "RichDEM.C114_error",
    "RichDEM.C114_error_numbers",
    "RichDEM.C114_bounded",
    "RichDEM.C114_count_exact",
    "RichDEM.C114_error_path",
    "RichDEM.C114_mass_balance",
    "RichDEM.C114_error_path_numbers",
    "RichDEM.C114_exact",
    "RichDEM.C114_d8_counts",
    "RichDEM.C114_limit_refuted"
   ],
   "note": "C114_exact, C114_count_exact, C114_d8_counts (whole flows), C114_error (any network, cyclic ones included), C114_error_path, C114_error_path_numbers (floats, paths up to 2^22 cells: L*2^-23), C114_error_numbers, C114_mass_balance, C114_bounded. C114_limit_refuted shows that 2^53 (2^24 for float accumulations) cannot be raised. Rounding is to nearest, ties to even, with unbounded exponents: overflow and denormals are not modelled; the relative error v of the proportions themselves is a hypothesis (2^-24 for a correctly rounded float)."
  },
  {
   "property": "C115",
   "status": "proved",
   "theorems": [
    "RichDEM.C115_freeman",
    "RichDEM.C115_holmgren",
    "RichDEM.C115_quinn",
    "RichDEM.C115_sum",
    "RichDEM.C115_exact_refuted",
    "RichDEM.C115_single",
    "RichDEM.C115_accumulation",
    "RichDEM.C115_balance"
   ],
   "note": "C115_freeman, C115_holmgren, C115_quinn, C115_sum, C115_single, C115_accumulation, C115_balance. C115_exact_refuted: the proportions do not add up to one exactly (Quinn with three equal outlets sends out more water than arrives; Freeman gives a single outlet less than everything). pow is a parameter with its relative error as a hypothesis; exponents of floating-point numbers are unbounded: overflow and underflow are not modelled; the subtraction of integers is exact (no int overflow)."
  },
  {
   "property": "C116",
   "status": "partial",
   "theorems": [
    "RichDEM.C116_freeman_sends",
    "RichDEM.C116_holmgren_sends",
    "RichDEM.C116_quinn_sends_partial",
    "RichDEM.C116_quinn_partial",
    "RichDEM.C116_freeman_partial",
    "RichDEM.C116_holmgren_partial",
    "RichDEM.C116_refuted"
   ],
   "note": "False as stated: C116_refuted (a slope of one unit in the last place of a double at elevation 1000, as epsilon filling leaves it, exponent 4: neither metric sends any flow; Freeman even marks the cell as one that has flow). Proved: C116_freeman_sends and C116_holmgren_sends say exactly when a cell sends flow (the power of the gradient to some lower neighbour exceeds 2^-150); C116_quinn_sends_partial: with Quinn a drop of more than 2^-147 suffices; C116_quinn_partial, C116_freeman_partial, C116_holmgren_partial: within a range (drops 2^-47 to 2^49, weights 2^-50 to 2^50) the bounds of C115 hold with real floats. Overflow of float and of double is not modelled."
  },
  {
   "property": "C117",
   "status": "partial",
   "theorems": [
    "RichDEM.C117_error_partial",
    "RichDEM.C117_exact_partial",
    "RichDEM.C117_assertion_partial",
    "RichDEM.C117_assertion_exact_partial",
    "RichDEM.C117_refuted",
    "RichDEM.C117_assertion_refuted"
   ],
   "note": "False as stated: C117_refuted (a basin of nine cells with a positive volume is given a negative one by one thread, a different one by two: cancellation of count times spill elevation against the sum). Proved for every division among threads: C117_error_partial (counts right; volume within (k+2) 2^-52 k M of the exact one for k cells of size at most M) and C117_exact_partial (elevations that are multiples of 2^e with 2 k M < 2^53 2^e, such as integers: exact, hence non-negative and independent of the threads). The assertion that two children hold at most their parent's volume (line 896): C117_assertion_refuted (it fails through rounding at elevations near 2^41 although it holds of the exact volumes), C117_assertion_partial (N cells below M with 2 N (N+3) M <= 9e-7 * 2^52: never), C117_assertion_exact_partial (exact elevations: never). Overflow of the 32-bit cell count is not modelled."
  },
  {
   "property": "C118",
   "status": "partial",
   "theorems": [
    "RichDEM.C118_list",
    "RichDEM.C118_empty_list_refuted",
    "RichDEM.C118_template_partial",
    "RichDEM.C118_template_noData_refuted",
    "RichDEM.C118_min_partial",
    "RichDEM.C118_max_partial",
    "RichDEM.C118_no_data_refuted",
    "RichDEM.C118_infinite_refuted",
    "RichDEM.C118_nan",
    "RichDEM.C118_scale",
    "RichDEM.C118_scale_double",
    "RichDEM.C118_scale_float",
    "RichDEM.C118_scale_int",
    "RichDEM.C118_scale_refuted"
   ],
   "note": "Proved: C118_list (rows of equal length give the raster, others raise), C118_template_partial (dimensions, placement, projection, name, metadata, contents), C118_min_partial and C118_max_partial (extremes of the data cells when one is within the finite range of the type), C118_nan (NaN cells are ignored even when NaN is not NoData), C118_scale with C118_scale_double, C118_scale_float and C118_scale_int (what every cell becomes; when it is undefined). Refuted: C118_empty_list_refuted (a list without rows is undefined behaviour), C118_template_noData_refuted (the NoData value is not taken over), C118_no_data_refuted (without data cells min returns the largest number of the type, above max), C118_infinite_refuted (only infinite elevations: min is finite), C118_scale_refuted (data cells become NoData, scaling back does not restore, integer overflow is undefined)."
  },
  {
   "property": "C119",
   "status": "partial",
   "theorems": [
    "RichDEM.C119_number",
    "RichDEM.C119_large_number_refuted",
    "RichDEM.C119_negative_number_refuted",
    "RichDEM.C119_rest_refuted",
    "RichDEM.C119_flood_all",
    "RichDEM.C119_flood_limited_partial",
    "RichDEM.C119_flood_usage",
    "RichDEM.C119_has",
    "RichDEM.C119_has_flood",
    "RichDEM.C119_mask",
    "RichDEM.C119_breach_complete",
    "RichDEM.C119_breach_complete_ignores",
    "RichDEM.C119_breach_unlimited",
    "RichDEM.C119_breach_options",
    "RichDEM.C119_depth_int",
    "RichDEM.C119_depth_fits",
    "RichDEM.C119_negative_depth_refuted",
    "RichDEM.C119_depth_refuted",
    "RichDEM.C119_next_int",
    "RichDEM.C119_breach_eps_int",
    "RichDEM.C119_small_refuted",
    "RichDEM.C119_limit_text_refuted",
    "RichDEM.C119_noData_refuted",
    "RichDEM.C119_eps_int_refuted",
    "RichDEM.C119_eps_noData_refuted"
   ],
   "note": "Proved: C119_flood_all, C119_flood_limited_partial, C119_flood_usage, C119_has, C119_has_flood, C119_mask, C119_breach_complete, C119_breach_complete_ignores, C119_breach_unlimited, C119_breach_options, C119_breach_eps_int (integer rasters with NoData below the data), C119_number (numbers below 2^32), C119_depth_int and C119_depth_fits (truncating a depth limit to an integer type changes no decision while it fits), C119_next_int (what nextafter does to integers). Refuted: C119_large_number_refuted, C119_negative_number_refuted, C119_rest_refuted and C119_limit_text_refuted (sizes wrap modulo 2^32 and are cut at the first non-digit), C119_small_refuted (not every small depression is flooded), C119_noData_refuted (holes of NoData are reported and filled), C119_depth_refuted (a depth limit above the cell type is undefined behaviour), C119_negative_depth_refuted (negative depth limits are rounded towards zero), C119_eps_int_refuted (no gradients on integers that are not positive), C119_eps_noData_refuted (EPS digs data cells to NoData)."
  },
  {
   "property": "C120",
   "status": "partial",
   "theorems": [
    "RichDEM.C120_accumulation",
    "RichDEM.C120_conservation",
    "RichDEM.C120_disabled_refuted",
    "RichDEM.C120_usage",
    "RichDEM.C120_attribute",
    "RichDEM.C120_attribute_unknown_refuted",
    "RichDEM.C120_curvature_clash_refuted"
   ],
   "note": "Over the reals (rounding of accumulations is C114/C115). Proved: C120_accumulation, C120_conservation, C120_usage, C120_attribute. Refuted: C120_disabled_refuted (methods 7 to 9 and unknown numbers end with status 0 and write the cell area everywhere, NoData cells included), C120_attribute_unknown_refuted (an unknown attribute writes zeros with status 0), C120_curvature_clash_refuted (a curvature of -1 on a data cell is the NoData value of the output)."
  },
  {
   "property": "C121",
   "status": "partial",
   "theorems": [
    "RichDEM.C121_tree",
    "RichDEM.C121_spill",
    "RichDEM.C121_labels",
    "RichDEM.C121_usage",
    "RichDEM.C121_georeference_refuted",
    "RichDEM.C121_readable",
    "RichDEM.C121_format"
   ],
   "note": "Proved: C121_tree, C121_spill, C121_labels, C121_usage, C121_format, C121_readable. Refuted: C121_georeference_refuted (the raster of labels has the projection of the DEM but no geotransform)."
  },
  {
   "property": "C122",
   "status": "partial",
   "theorems": [
    "RichDEM.C122_directions",
    "RichDEM.C122_data_partial",
    "RichDEM.C122_tie_order",
    "RichDEM.C122_usage",
    "RichDEM.C122_north_up_partial",
    "RichDEM.C122_west_refuted",
    "RichDEM.C122_noData_cell_refuted",
    "RichDEM.C122_data_cell_refuted",
    "RichDEM.C122_south_up_refuted"
   ],
   "note": "Proved: C122_directions, C122_tie_order, C122_usage; C122_data_partial when no elevation is below the NoData value (then 255 stands exactly where NoData cells lead to the edge); C122_north_up_partial. Refuted: C122_noData_cell_refuted (an enclosed NoData cell below the data is filled and gets a direction), C122_data_cell_refuted (with a high NoData value enclosed data are filled up to it and lost), C122_south_up_refuted (a loop), C122_west_refuted (undefined behaviour)."
  },
  {
   "property": "C123",
   "status": "partial",
   "theorems": [
    "RichDEM.C123_timer_protocol",
    "RichDEM.C123_timer_sum",
    "RichDEM.C123_timer_nonneg",
    "RichDEM.C123_no_failure",
    "RichDEM.C123_shown_partial",
    "RichDEM.C123_increasing_partial",
    "RichDEM.C123_counted",
    "RichDEM.C123_stop",
    "RichDEM.C123_serial_refuted",
    "RichDEM.C123_zero_refuted",
    "RichDEM.C123_stale_refuted",
    "RichDEM.C123_overflow_refuted",
    "RichDEM.C123_hundred_refuted",
    "RichDEM.C123_threads_refuted",
    "RichDEM.C123_after_stop_refuted"
   ],
   "note": "Proved: C123_timer_protocol, C123_timer_sum, C123_timer_nonneg, C123_no_failure (positive totals), C123_stop, C123_counted (what thread 0 reports); C123_shown_partial and C123_increasing_partial when the hundredfold work fits 32 bits. Refuted: C123_zero_refuted and C123_stale_refuted (a total of zero, which a stale data cell count gives, is divided by), C123_after_stop_refuted, C123_overflow_refuted, C123_hundred_refuted (401 cells end at 99 percent), C123_threads_refuted (only the reports of one thread are counted), C123_serial_refuted (nothing is shown or counted without OpenMP)."
  },
  {
   "property": "C124",
   "status": "partial",
   "theorems": [
    "RichDEM.C124_display_partial",
    "RichDEM.C124_aligned_partial",
    "RichDEM.C124_mirror_refuted",
    "RichDEM.C124_int_refuted",
    "RichDEM.C124_usage_partial",
    "RichDEM.C124_truncated_refuted",
    "RichDEM.C124_layout"
   ],
   "note": "Proved: C124_layout; C124_display_partial when the view need not be mirrored and all cells fit an int, C124_aligned_partial (numbers of at most six characters), C124_usage_partial. Refuted: C124_mirror_refuted (fliph, and columns that run west, are undefined behaviour), C124_int_refuted (a cell beyond the range of int is undefined behaviour), C124_truncated_refuted (cells are truncated). An unknown directive ends with status 0 (in C124_usage_partial)."
  },
  {
   "property": "C125",
   "status": "partial",
   "theorems": [
    "RichDEM.C125_flows",
    "RichDEM.C125_flows_partial",
    "RichDEM.C125_indices",
    "RichDEM.C125_block_partial",
    "RichDEM.C125_centred_refuted",
    "RichDEM.C125_radius_refuted",
    "RichDEM.C125_flows_refuted"
   ],
   "note": "Proved: C125_indices; C125_flows (any field width, by the position in the line), C125_flows_partial (fields of at least two characters, by words); C125_block_partial when the ends of the block are ints (columns and rows from radius before to radius - 1 after the centre). Refuted: C125_centred_refuted (the block lacks the columns east and rows south at distance radius), C125_radius_refuted (a huge radius overflows), C125_flows_refuted (fields of one character run together)."
  }
 ]
}