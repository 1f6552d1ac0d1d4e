# Formal model of r-barnes/richdem (Lean 4)

Only `/repo` was read (as text); nothing was built or run.  Everything below is about a
*model* written in Lean 4 in `/verif/lean/Verif`.

## Layout

* `Verif/Spec*.lean`: specification vocabulary (paths, water levels, reachability …),
  independent of the algorithm models.
* `Verif/<Area>.lean`, `Verif/<Area>/*.lean`: the executable models (each definition cites
  `/repo` lines) and helper lemmas.
* `Verif/Props/*.lean`: property theorems, each with an `example` showing that a concrete
  non-trivial case meets the hypotheses.  `Cnn_…` names refer to `properties.jsonl`.
  `_partial`: only part of the English property; `_refuted` (or a name saying what goes wrong):
  the negation, with a concrete witness or for all inputs of a class.
* `tools/`: generators of MANIFEST.json and of the table below; `seeded/LOG.jsonl`: mutation runs.

## Trusted base

* Lean 4.33.0's kernel, and the axioms `propext`, `Classical.choice`, `Quot.sound` (every theorem
  depends on a subset of these three; no other axiom, no compiled evaluation).  Concrete
  witnesses are evaluated by the kernel (`decide +kernel`).
* The specification files and the statements in `Verif/Props`.
* My reading of the C++ source: that each definition does what the cited lines do.

## General modelling decisions

* Elevations range over an arbitrary linear order (or an ordered field where arithmetic is
  done, the reals where roots or angles occur).  So NaN, rounding, and overflow of elevation
  arithmetic are outside the model except where stated (`DS/GridCell`, `DS/Encoder`; `nextafter`
  is an abstract strictly increasing map).
* `int`/`uint32_t` cell indices and labels are unbounded integers; C01 and C35 state the size
  bound under which the 32-bit computation coincides; `DS/Disjoint`, `IO/Native` model 32-bit
  wrap-around.
* `std::priority_queue` is *any* container that returns some minimum (`PQ`): theorems quantify
  over the pop function, hence over tie orders.  `std::queue`/worklists under OpenMP are `AnyQ`
  (any pop order) where the order is not fixed by the code.
* A `while` loop is a step function iterated with fuel; a theorem shows that a stated fuel always
  suffices (termination), so results do not depend on fuel.  Recursions (`FRes`) distinguish
  "out of fuel" from "assertion/exception".
* Out-of-bounds access, failed assertions and exceptions are distinct outcomes (`none`, `.fail`)
  wherever a property depends on them.
* OpenMP loops are threads over a shared memory with sequentially consistent loads and stores (`Omp/*`,
  `Flow/Race`, `Flow/DinfRace`, `Flats/Push`, `DepHier/Seeds`); MPI is reliable first-in-first-out channels between
  two processes, any order between different ones; NumPy arrays are strided views of memory blocks (`Py/Model`).
* Not modelled: progress bars, logging, timing, the GDAL library (its files are records of band, NoData,
  geotransform, projection and metadata), MPI itself, cereal serialisation, command-line parsing except where a
  property is about it.

## Code coverage

| `/repo` file (include/richdem/ unless given) | modelled (modules) | not modelled |
|---|---|---|
| common/constants.hpp, grid_cell.hpp, math.hpp | all tables, cell orders, tolerant comparisons (`Grid`, `DS/GridCell`) | – |
| common/Array2D.hpp | indexing, neighbours, edges, flips, transpose, resize, expand, rows/columns, counting, equality, native save/load, dump (`Raster`, `IO/Native`); windows, georeferencing, metadata, loadGDAL, saveGDAL with loaders.hpp (`IO/Gdal`) | GDAL itself, conversion of cell types, compression, stamps |
| common/Array3D.hpp | addressing, resize, wrap, NoData test, counting, == (`Array3D`) | file names, projection, view offsets |
| common/disjoint_dense_int_set.hpp, ManagedVector.hpp, radix_heap.hpp, lru.hpp | all (`DS/*`) | – |
| common/Layoutfile.hpp | reader, writer, getBasename, getFullPath, getGridLocName (`IO/Layout`) | Windows separators |
| common/random.hpp, src/random.cpp | mt19937 (seed, next word, tempering), seeding of all threads in any order, uniform reals and their rounding, normal numbers up to the polar method, save/restore; Rho8/Rho4 with the numbers they draw (`Rand/*`) | uniform_rand_int (unused), seeding from the random device (arbitrary), the values of the polar method |
| common/communication.hpp, producer/consumer loops of both tiled programs | protocol as a transition system over first-in-first-out channels (`Comm/*`) | serialisation, MPI itself |
| tiled/A2Array2D.hpp | tile cache, eviction, read-only rasters from layouts, saving (`IO/Tiled`, `IO/TiledSave`, `IO/TiledRead`) | read-only rasters with flips when saving, non-standard tile sizes |
| depressions/Barnes2014.hpp, Zhou2016, Wei2018, Lindsay2016, depressions.hpp, fill/perimeter | all algorithms (`Flood`, `Zhou`, `Wei`, `Breach`, `Epsilon`, `Fill/*`, …) | – |
| depressions/depression_hierarchy.hpp | flood, outlets, tree, volumes, LastLayer; the parallel collection of seeds: thread-private vectors, reduction in any order, sort (`DepHier/*`) | GraphViz output, exceptions leaving a parallel region |
| depressions/fill_spill_merge.hpp | all phases (`DepHier/*`) | – |
| flats/find_flats.hpp, flat_resolution.hpp, Barnes2014.hpp | mask, epsilon, flow directions; FindFlatEdges with threads appending to shared queues (`Flats/*`) | the logged counter |
| flats/flat_resolution_dinf.hpp | dinf_masked_FlowDir, dinf_flow_flats, resolve_flats_barnes_dinf (`Flats/FlowFlatsDinf`) | rounding of angles |
| flats/garbrecht.hpp, flats/main.cpp | FindFlats, both gradients, CombineGradients, GarbrechtAlg (`Garb/*`) | rounding of the increments |
| flowmet/* | all metrics, d8/d∞ flow directions (`Flow/*`) | rounding of proportions |
| methods/* | d8_methods, dinf_methods (with the interleavings of the parallel counts), flow_accumulation, terrain_attributes (`Flow/*`, `Terrain/*`) | strahler (commented out in the source), weak memory |
| misc/* | perimeter, conversions, generation | – |
| `#pragma omp parallel for` loops (flowmet/*, flats/*, terrain_attributes, MoveWaterIntoPits, LastLayer) | bodies as programs of loads and stores, threads, dealing of iterations, interleavings (`Omp/*`) | weak memory, exceptions inside a region, progress bars |
| src/terrain_generation/* | noise, fade, lerp, grad, generate_perlin_terrain (`Gen/Perlin`) | random engine and shuffle (any permutation), rounding |
| programs/parallel_priority_flood | tile flood, labels, spill graph, merge, producer, retention (`Par/*`) | MPI, GDAL, timing |
| programs/parallel_d8_accum | perimeter numbering, tile accumulation, links, producer graph with its 16-bit counters, second round (`ParD8/*`) | MPI, GDAL, timing |
| programs/tiled_flat_resolution | Master, ProcessFlat, d8EdgeFlow (`TFlat/*`) | GDAL, flips |
| Array2D::printBlock, printAllFlows, printAllIndices | `Apps/ShowTools` | messages, colours as terminal codes; printBlock: the text of the cells |
| apps/rd_raster_display.cpp, apps/rd_layout_display.py | `Apps/ShowTools` | the header and the messages on the error stream; `SHOW_STAMPS` |
| common/timer.hpp, common/ProgressBar.hpp | `Progress/Bar`: all functions | times are rational numbers; the clock is an argument; `RICHDEM_NO_PROGRESS`; terminal control codes |
| apps/rd_d8_flowdirs.cpp, rd_flood_for_flowdirs.cpp | `Apps/DirTools`: arguments, load, directions, file written | NaN elevations |
| apps/rd_depression_hierarchy.cpp | `Apps/HierTool`: arguments, load, labels, hierarchy, table and raster written | `std::stod` and the order of equal outlets are parameters; NaN elevations |
| apps/rd_flow_accumulation.cpp, apps/rd_terrain_property.cpp | `Apps/FlowApps`: arguments, load, metric or attribute, save | `std::stof` is a parameter; exact reals |
| apps/rd_depressions_{flood,has,mask,breach}.cpp | `Apps/DepTools`: arguments, load, algorithm, save | `std::stod` is a parameter; NaN elevations |
| common/Array2D.hpp:299-411, 515-535, 1406-1410 (constructors, min, max, scale) | `RasterBuild`: lists, templates, reductions, scaling of doubles, floats and integers | wrapping constructor (see C33), NaN in scale |
| depressions/depression_hierarchy.hpp:793-900 (double arithmetic) | the same functions with sums and products rounded to doubles (`DepHier/VolumeR`) | 32-bit overflow of cell_count |
| flowmet/Freeman1991.hpp, Holmgren1994.hpp, Quinn1991.hpp (range of float) | store into `Array3D<float>` with subnormals and underflow to zero (`Flow/Underflow`) | overflow |
| flowmet/Freeman1991.hpp, Holmgren1994.hpp, Quinn1991.hpp (arithmetic) | doubles and floats rounded to nearest even (`Flow/RoundedMetrics`) | overflow, underflow; pow is a parameter |
| methods/flow_accumulation_generic.hpp (arithmetic) | rounded addition and multiplication, fused or not, float proportions (`Flow/Rounded`, `Flow/RoundedDepth`) | overflow, denormals |
| apps/rd_taudem_d8_to_richdem_d8, rd_loop_check, rd_flood_for_flowdirs | conversion loop, FollowPath, PerformAlgorithm (`Apps/FlowTools`) | GDAL, floating-point codes |
| apps/rd_fill_spill_merge | lines 40-99 (`Apps/FillSpill`) | file access, option parsing, the NaN default of --swl |
| apps/rd_compare, rd_expand_dimensions, rd_no_data, rd_geotransform, rd_projection, rd_processing_history, rd_hist, rd_raster_inspect | whole tools (`Apps/RasterTools`) | GDAL, printing formats |
| apps/rd_merge_rasters_by_layout | lines 16-86 (`IO/TiledRead`) | GDAL |
| apps/rd_layout_find_square.py, rd_layout_check.py | whole (`Apps/LayoutTools`) | white space other than ASCII; the printed text is reduced to its numbers |
| wrappers/pyrichdem/richdem/__init__.py, src/pywrapper.{hpp,cpp}: DEM functions, accumulation, hierarchy, Fill-Spill-Merge | rdarray, wrap, NumPy views and memory, NoData conversion, metadata (`Py/Model`, `Py/Fill`, `Py/FillSpill`) | time stamps, warnings, plotting |
| wrappers/pyrichdem FlowProportions, FlowAccumFromProps, TerrainAttribute, rd3array | method tables, three-dimensional views, wrapping, memory, metadata, composition with C20/C17/C48 (`Py/Flow`, `Py/Terrain`) | the metrics themselves (parameter), rounding inside the attributes |
| wrappers/pyrichdem LoadGDAL, SaveGDAL, cli.py | DepressionFilling, BreachDepressions, FlowAccumulation as functions from file to file; RdCompare: metadata, cells, element type of the difference, broadcasting (`Py/Gdal`, `Py/Compare`) | argument parsing, RdInfo, display, float overflow and denormals, NaN, printed digits |

## Disagreements between documentation and code (all machine-checked unless marked *read*)

See the `_refuted`-style theorems and the notes in MANIFEST.json.  *Read only*: `FM_OCallaghan` has an
assertion naming an undefined identifier; `d8_upslope_cells` writes a private member; `misc_methods.hpp`
shares the include guard `_richdem_dinf_methods_hpp_` with `dinf_methods.hpp`, so including both drops one;
`numeric_limits<int>::infinity()` is 0, the default `out_elev` for integer rasters.

## Per-property table

<!-- table -->
| id | property | model (Verif/…) | proof method | status |
|----|----|----|----|----|
| C01 | Linear and 2-D cell addresses are in bijection | `Grid` | index arithmetic over Int; the uint32 computation equals it below 2^32 cells | proved |
| C02 | Neighbour lookup never leaves or wraps around the raster | `Grid` | case analysis on position and direction; tables lifted to all cells | proved |
| C03 | Direction tables are consistent and ArcGIS codes round-trip | `Grid` | finite tables, all directions | proved |
| C04 | Priority-Flood (Original) computes the minimal drained surface | `Flood` | loop over an arbitrary heap; closed-cell invariant; spec = min over paths of max elevation | proved |
| C05 | Priority-Flood (Barnes2014) computes the same minimal drained surface | `Flood` | same, with the pit queue; the two loops meet the same spec | proved |
| C06 | Depression filling never lowers a cell and leaves the perimeter alone | `Flood` | corollary of C04/C05 spec | proved |
| C07 | A filled raster drains, and the depression detector agrees | `Flood, PitMask` | HasDepressions loop invariant; Drained spec | proved |
| C08 | Depression filling is idempotent and monotone | `Flood` | algebra of the spec | proved |
| C09 | Every run of Priority-Flood terminates after visiting each cell once | `Flood, Loop` | measure: cells not yet closed; each pop closes exactly one queued cell | proved |
| C10 | Epsilon filling leaves no flats or depressions | `Epsilon` | invariant: every closed cell has a strictly lower witness; `next` any strictly increasing map | proved |
| C11 | Priority-Flood flow directions drain every cell off the raster | `Flowdirs` | rank = closing time decreases along directions | proved |
| C12 | Watershed labels partition the raster along drainage | `Watersheds` | label inherited along the flow tree | proved |
| C13 | The pit mask marks exactly the cells that filling would raise | `PitMask` | same invariant as C04 | proved |
| C14 | Size-limited filling fills every small depression | `MaxDep` | documented claim refuted; bounds proved | partial |
| C15 | All depression fillers compute the same surface | `Zhou, Wei, Trace` | refinement of trace/potential queues to the fill spec | proved |
| C16 | D8 flow direction points to a lowest neighbour | `Flow/FlowDir` | fold over n = 1..8 | proved |
| C17 | O'Callaghan (D8/D4) flow metric sends all flow to a lowest strictly lower neighbour | `Flow/FlowDir, Flow/Accum` | fold invariants; D4 slot mismatch refuted | partial |
| C18 | Multiple-flow proportions are a probability distribution over downslope neighbours | `Flow/MultiFlow` | ordered-field algebra; `pow` as real power | proved |
| C19 | D-infinity splits flow between two adjacent directions with proportions summing to one | `Flow/Tarboton, Flow/DinfDirs` | real analysis of facet slopes; refutation of the shares | partial |
| C20 | Flow accumulation is the upstream sum and conserves mass | `Flow/Kahn, Flow/Accum` | Kahn loop invariant; Σ over upstream; every queue order | proved |
| C21 | D8 accumulation counts the upstream cells | `Flow/Accum` | Kahn loop; upstream set = reachability | proved |
| C22 | D8 upslope set is exactly the contributing area | `Flow/Upslope` | queue flood = reachability; line drawing by case | partial |
| C23 | Flat finding classifies every cell correctly | `Flats/Core` | case analysis | proved |
| C24 | Flat labels are the connected equal-elevation regions that can drain | `Flats/Core, Flats/Mask` | flood fill invariant | proved |
| C25 | Flat gradients equal graph distances and always lead to an outlet | `Flats/Mask, Flats/Barnes` | BFS level invariant = graph distance | proved |
| C26 | Flat resolution edits only the cells it should | `Flats/Barnes` | frame theorems, refutations | partial |
| C27 | Disjoint sets implement the generated equivalence relation | `DS/Disjoint` | refinement to generated equivalence over all histories | proved |
| C28 | mergeAintoB makes B's representative the representative of the merged set | `DS/Disjoint` | forest invariant | proved |
| C29 | The LRU list orders entries by last use and evicts the oldest | `DS/LRU` | refinement to a recency list | partial |
| C30 | The radix heap is a correct monotone priority queue | `DS/Radix` | bucket invariant over all monotone histories | proved |
| C31 | Radix-heap key encodings preserve order and are invertible | `DS/Encoder` | BitVec/Nat arithmetic | proved |
| C32 | Priority-queue cell orderings are strict weak/total orders with the documented tie rule | `DS/GridCell` | comparison algebra with NaN as bottom | proved |
| C33 | Wrapped memory is never freed by the raster | `DS/Managed` | ownership state machine over histories | partial |
| C34 | Raster flips and transposes are the geometric operations | `Raster` | list models; refutations | partial |
| C35 | Expanding and resizing keep data in place | `Raster` | list models | proved |
| C36 | Row, column, edge and counting helpers touch/return exactly the named cells | `Raster` | list models; stale cache refuted | partial |
| C37 | Native cache save/load is lossless | `IO/Native` | byte codec round trip | partial |
| C38 | A truncated native file is detected | `IO/Native` | short-read model; refuted for every crash point | partial |
| C39 | Tile layout files round-trip | `IO/Layout` | writer/parser over characters | partial |
| C40 | Tile base names drop only the directory and the extension | `IO/Layout` | string search | partial |
| C41 | A tiled raster behaves like one big raster whatever is evicted | `IO/Tiled` | refinement of the tile cache to one raster over all histories | partial |
| C42 | Bucket fill marks exactly the connected region | `Fill/Bfs, Fill/Bucket` | flood fill = reachability | proved |
| C43 | Depression volumes and counts aggregate the hierarchy | `DepHier/Volume` | sums over heldCells; merge of thread partials in any order | proved |
| C44 | Fill-Spill-Merge conserves water | `DepHier/Move, DepHier/MoveTotal` | mutual recursion; WaterInv; measure for termination | proved |
| C45 | The lake-level equation stores exactly the given volume | `DepHier/Lake` | ordered-field algebra | proved |
| C46 | Breaching only lowers (after pit raising) and leaves every cell drained | `Breach, BreachThm` | back-link invariant, visiting order | proved |
| C47 | Perimeter counting follows its definition | `Fill/Perimeter` | counting folds | partial |
| C48 | Terrain attributes use only valid neighbours and vanish on planes/flat ground as they should | `Terrain/Attributes` | 3x3 stencil algebra; reals for slope/aspect | proved |
| C49 | Tiled parallel filling equals sequential filling | `Par/Tile, Par/Graph, Par/Merge, Par/Main, Par/Whole` | tile spill graphs; path decomposition; global graph flood | proved |
| C50 | Tolerant comparisons behave as documented | `Spec, Props/SurfaceArea` | ordered field | proved |
| C51 | NoData cells stay NoData under filling | `Flood` | path characterisation; refutation | partial |
| C52 | D8 accumulation is independent of the thread schedule | `Flow/Race` | interleaving semantics of read/add/write; lost update exhibited | partial |
| C53 | D8 flat resolution drains every drainable flat | `Flats/FlowFlats` | gradient descent of the flat mask | proved |
| C54 | Fill, route, resolve, accumulate: the standard pipeline conserves water | `Props/FlowFlats` | composition of C05, C16, C24, C25, C21 | proved |
| C55 | Surface area is at least planar area | `Terrain/SurfaceArea` | real geometry | proved |
| C56 | Rho8/Rho4 send flow to one lower neighbour | `Flow/FlowDir` | fold with random draw as oracle | partial |
| C57 | Accumulation over any downhill metric is exact and conserves flow | `Flow/MultiFlow, Flow/Accum` | acyclicity from strict descent + C20 | proved |
| C58 | D-infinity upslope area is exact | `Flow/Dinf` | Kahn loop on two-receiver graph | partial |
| C59 | The depression hierarchy labels every cell and its flow directions end in the label's pit | `DepHier/Flood` | flood invariant with labels and paths | proved |
| C60 | The outlet table holds exactly the lowest passes between depressions | `DepHier/Flood, DepHier/Main` | outlet-table invariant (sound and complete) | proved |
| C61 | The depression hierarchy is a binary forest rooted in the ocean | `DepHier/Tree` | HierInv by induction over the sorted outlets (Kruskal) | proved |
| C62 | Spill elevations are the lowest passes out of each (meta)depression | `DepHier/Tree, DepHier/Main` | cut property | proved |
| C63 | The hierarchy determines the level at which water reaches the ocean | `DepHier/Main` | connectivity below a level | proved |
| C64 | SPI and CTI follow their formulas and mark only NoData cells | `Terrain/Attributes` | real algebra; refutation | partial |
| C65 | Spreading a depression's water makes one flat lake and loses none | `DepHier/Lake, DepHier/LakeTotal` | lake flood invariant | partial |
| C66 | Breach-then-fill leaves every cell drained | `Breach, BreachThm` | as C46 plus flooding step; refutation | partial |
| C67 | Flooded tiles kept between the rounds come back unchanged | `Par/Prep` | store/retrieve; refutation | partial |
| C68 | Tiles beside missing tiles drain into them | `Par/Prep` | edge drainage beside null tiles; refutation | partial |
| C69 | The suggested block size is the nearest usable one | `Par/Prep` | fold minimum; refutation | partial |
| C70 | Fill-Spill-Merge runs all standing water to the pits | `DepHier/Pits` | Kahn-style loop with books invariant; refutation | partial |
| C71 | Fill-Spill-Merge conserves water and leaves it standing still in depressions | `DepHier/Fill, FillThm, FillAll` | composition of C70, C44, C45 with a tree of lakes; refutations | partial |
| C72 | Equal elevations leave the queue of GetDepressionHierarchy last in, first out | `DS/RadixLifo, DepHier/Heap` | refinement (forward simulation) | proved |
| C73 | A flat without lower neighbours belongs to a single depression | `DepHier/Lifo, PitFlat` | stack-discipline invariant of the flood | proved |
| C74 | Tiled flow accumulation equals flow accumulation of the whole raster | `ParD8/*` | per-tile accumulation equations cut at tile borders; Kahn invariant of the producer with 16-bit counters; path links by induction; uniqueness of the accumulation of an acyclic flow | partial |
| C75 | Perimeter cells of a tile are numbered without gaps or repetitions | `ParD8/Serial` | case analysis and linear arithmetic | partial |
| C76 | The tiled programs finish under every schedule and write the right files | `Comm/Model, Comm/Thm` | invariant over all interleavings by phase and ghost queues; progress lemma; decreasing rank | partial |
| C77 | Tiled greedy flat resolution: directions complete, downhill and free of loops | `TFlat/Model, TFlat/Thm` | invariant with ghost assignment times; closedness of flats; finite rank | proved |
| C78 | Garbrecht flat resolution: increments are distances, but flats can stay unresolved and the loops can run for ever | `Garb/Model, Garb/Thm` | round invariant relating values to breadth-first distances, independent of the update order; iff for termination | partial |
| C79 | LastLayer marks exactly the cells under water when all depressions are full | `DepHier/LastLayer` | invariant of the hierarchy's construction about ocean links; induction along parents; C63 | partial |
| C80 | TauDEM directions are converted to the same neighbours | `Apps/FlowTools` | induction over the in-place loop; the table against TauDEM's documented geometry | proved |
| C81 | rd_loop_check reports exactly the cells whose flow runs into a loop | `Apps/FlowTools` | induction on the iterations left | partial |
| C82 | rd_flood_for_flowdirs writes directions that drain the filled raster | `Apps/FlowTools` | composition of C05, C07 and C53; mirror symmetry of the water level | partial |
| C83 | The raster of flow proportions stores nine independent numbers per cell | `Array3D` | arithmetic of the index map; list lemmas | partial |
| C84 | Generated Perlin terrain is defined everywhere, bounded, periodic and without seams | `Gen/Perlin` | table lookups reduced to a periodic lattice function; separable bound on the blend; gluing over the unit cubes for continuity | partial |
| C85 | D-infinity flat resolution drains every flat that has an outlet | `Flats/FlowFlatsDinf` | the generic flat-mask theory (FlatSys) on the angles' classification; each facet's receivers descend the mask; lexicographic descent (elevation, mask) for acyclicity | partial |
| C86 | Windows and georeferencing of rasters read and written through GDAL | `IO/Gdal` | case analysis of the clamping arithmetic; linear arithmetic over the rationals for the affine transform | partial |
| C87 | Metadata and the processing history survive loading and saving | `IO/Gdal` | association lists; induction over the sequence of saves and over the chain of programs | partial |
| C88 | A tiled raster saved as one file holds what the raster holds | `IO/TiledSave` | the cache simulation of C41 carried through the saving loop | partial |
| C89 | The rd_fill_spill_merge tool, end to end | `Verif.Apps.FillSpill, Verif.Props.FillSpill` | composition of C42, C59-C63, C43 and C71: bucket fill gives the ocean labels, the flood and hierarchy give depressions with at most as many labels as cells, Fill-Spill-Merge theorems apply to their result; a path to the ocean leaves the depression over its spill elevation | partial |
| C90 | Names and directories of layout files | `Verif.IO.Layout, Verif.Props.Layout` | splitting at the last separator; injectivity of decimal notation | partial |
| C91 | Calls from Python: in_place, memory and metadata | `Verif.Py.Model, Verif.Py.Thm, Verif.Py.Fill, Verif.Props.Python` | memory as blocks with liveness, arrays as strided views; frame lemmas for wrap, read and write; composition with C15, C10 and C46 | partial |
| C92 | Python: depression hierarchy and a simulation of rain | `Verif.Py.FillSpill, Verif.Props.PyFillSpill` | frame lemmas for the arrays, composition of C43, C59, C61, C62 and C71; induction over the sequence of rain with the session as invariant | partial |
| C93 | Limited breaching keeps to its limits | `Verif.Props.BreachLimits` | the measuring and the digging loop are related to the same path by induction over the acyclic back-links; the run by invariant | partial |
| C94 | Queries of the disjoint sets are short | `Verif.Props.DisjointDepth` | invariant: ranks increase along parents and a root of rank k has at least 2^(k-M) elements | proved |
| C95 | A read-only tiled raster shows its files | `Verif.IO.TiledRead, Verif.Props.TiledRead` | cache invariant (the memory of a loaded tile is the reoriented file), induction over the accesses | partial |
| C96 | Merging a layout into one raster | `Verif.IO.TiledRead, Verif.Props.TiledRead` | induction over the tiles on top of the cache invariant of C95; affine algebra for the places | partial |
| C97 | Comparing two rasters | `Verif.Apps.RasterTools, Verif.Props.RasterTools` | fold over the flat indices = count over the cells (bijection), case analysis of the conversions | partial |
| C98 | Tools that edit one raster | `Verif.Apps.RasterTools, Verif.Props.RasterTools` | composition of the load/save model with C35; text lemmas for decimal numbers | partial |
| C99 | Histogram of a raster | `Verif.Apps.RasterTools, Verif.Props.RasterTools` | fold invariant of the counting map; bijection between flat indices and cells | proved |
| C100 | Showing a window of a raster | `Verif.Apps.RasterTools, Verif.Props.RasterTools` | composition with C34; induction over the argument list; decimal text lemmas | partial |
| C101 | D-infinity flow follows the steepest descent of the surface | `Verif.Props.Steepest over Verif.Flow.DinfDirs, Verif.Flats.FlowFlatsDinf, Verif.Flow.Tarboton` | directional derivative of the triangulated surface as specification; Cauchy-Schwarz inside a triangle, fold invariant over the triangles | proved |
| C102 | Layout file tools report the largest square of tiles and reader-compatible rows | `Verif.Props.LayoutTools over Verif.Apps.LayoutTools, Verif.IO.Layout` | scan invariant (every visited entry holds the side of its largest square), composition with the model of the layout file reader | partial |
| C103 | The tile cache keeps the most recently used tiles, and getEvictions() is exact | `Verif.Props.LastUsed over Verif.IO.Tiled, Verif.IO.TiledRead, Verif.DS.LRU` | the cache list is the first c of the list of distinct tiles by last use, an invariant of every access; distance in that list = number of distinct tiles since | partial |
| C104 | LoadGDAL and SaveGDAL carry a raster and its metadata through a file | `Verif.Props.PyGdal over Verif.Py.Gdal, Verif.Py.Rounding` | rounding to p binary digits proved nearest, tie-to-even, idempotent and monotone; memory lemmas of C91 | partial |
| C105 | The Python command-line programs write what their names promise | `Verif.Props.PyGdal over Verif.Py.Gdal` | composition of C104, C91 and the theorems on filling; a monotone map commutes with filling; the epsilon fill only makes successors of input values | partial |
| C106 | rd_compare reports the differences of two rasters | `Verif.Props.PyCompare over Verif.Py.Compare` | C104 for both files and the memory lemmas of C91; extremes of a finite list; rounding to p digits is zero only at zero | partial |
| C107 | Parallel loops give the same result under every schedule | `Verif.Props.Omp over Verif.Omp.{Model,Thm,Loops}` | a small-step machine of threads with loads and stores; an ownership invariant (each number is constant, of one iteration, or free) proved along every schedule; each loop body shown to respect it and to leave the value of the sequential model | partial |
| C108 | D-infinity upslope area is independent of the thread schedule | `Verif.Props.DinfRace over Verif.Flow.{DinfRace,Race,Dinf}` | the increment machine of C52; counting by permutation of the rows; a concrete schedule evaluated in the kernel | partial |
| C109 | Flat resolution does not depend on the thread schedule | `Verif.Props.FlatsOrder over Verif.Flats.{Push,Mask,Barnes}` | appends under omp critical as atomic steps; a permutation invariant; the mask is determined by graph distances (C25), which do not mention the queues | partial |
| C110 | The depression hierarchy does not depend on the thread schedule | `Verif.Props.Seeds over Verif.DepHier.{Seeds,Flood}` | the user-declared reduction as an inductive relation over all combination trees; permutation, and uniqueness of sorted permutations | proved |
| C111 | Random numbers: seeding, reproducibility, range | `Verif.Props.Rand over Verif.Rand.{Model,Thm}` | mt19937 modelled word by word, libstdc++ distributions on exactly rounded doubles; simulation of two histories that agree on the engines; concrete engines by kernel evaluation | partial |
| C112 | Python: flow accumulation in two steps equals flow accumulation in one | `Verif.Props.PyFlow over Verif.Py.Flow` | three-dimensional NumPy views in the memory model of C91, composed with the accumulation of C20; the two-step equality by showing that the proportions read back are those the metric wrote | partial |
| C113 | Python: terrain attributes | `Verif.Props.PyTerrain over Verif.Py.Terrain` | the memory model of C91 composed with the attributes of C48; the library functions are shown equal to formulas written from the publications | partial |
| C114 | Flow accumulation in floating-point arithmetic | `Verif.Props.Rounded over Verif.Flow.Rounded and Verif.Flow.RoundedDepth` | simulation of the rounded loop by the exact loop of C20 with a relative error attached to every cell that depends on its longest upstream path and on the number of flows that have arrived | proved |
| C115 | Multiple-flow proportions in floating-point arithmetic | `Verif.Props.RoundedMetrics over Verif.Flow.RoundedMetrics` | rounding-error analysis over the reals: weights (rpow with Bernoulli and exp bounds), sum of floats in a double, reciprocal, product, store; then C114 and C57 for the accumulation | proved |
| C116 | Small gradients do not stop the water (multiple-flow metrics) | `Verif.Props.Underflow over Verif.Flow.Underflow` | float stores with subnormals; the largest weight of a cell against a crude bound of the sum | partial |
| C117 | Volumes of depressions in floating-point arithmetic | `Verif.Props.VolumeR over Verif.DepHier.VolumeR` | rounded run simulated by the exact run (C43_volumes), relation between count, sum and computed sum closed under addition | partial |
| C118 | Rasters built from lists and templates; extremes and scaling | `Verif.Props.RasterBuild over Verif.RasterBuild` | loops over flat lists by induction; max as min of the dual order | partial |
| C119 | The depression tools, from arguments to files | `Verif.Props.DepTools over Verif.Apps.DepTools` | composition of the file model with the algorithm theorems; lemmas on std::stoul by computation on digit lists | partial |
| C120 | rd_flow_accumulation and rd_terrain_property, from arguments to files | `Verif.Props.FlowApps over Verif.Apps.FlowApps` | composition of the file model with C57 and the attribute theorems | partial |
| C121 | rd_depression_hierarchy, from arguments to files | `Verif.Props.HierTool over Verif.Apps.HierTool, Verif.DepHier.OceanPass` | composition of the file model with the hierarchy invariant; a further invariant for ocean links | partial |
| C122 | rd_d8_flowdirs and rd_flood_for_flowdirs, from arguments to files | `Verif.Props.DirTools over Verif.Apps.DirTools` | composition of the file model with the fill and flat-resolution theorems; loop invariant for cells outside the raster | partial |
| C123 | Timer and progress bar | `Verif.Props.Progress over Verif.Progress.Bar` | state invariant over histories of calls; characterisation of one update | partial |
| C124 | Drawing rasters and layouts on the terminal | `Verif.Props.ShowTools over Verif.Apps.ShowTools` | text written is read back by lines, words and stoi; induction over lines and items | partial |
| C125 | Printing functions of Array2D | `Verif.Props.ShowTools over Verif.Apps.ShowTools` | text read back by lines and words; clipped ranges characterised by membership | partial |
<!-- /table -->
