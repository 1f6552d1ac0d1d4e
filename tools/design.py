#!/usr/bin/env python3
"""Regenerates the per-property table of DESIGN.md from properties.jsonl, MANIFEST.json and HOW."""
import json, os
R='/verif'
HOW={
'C01':('Grid','index arithmetic over Int; the uint32 computation equals it below 2^32 cells'),
'C02':('Grid','case analysis on position and direction; tables lifted to all cells'),
'C03':('Grid','finite tables, all directions'),
'C04':('Flood','loop over an arbitrary heap; closed-cell invariant; spec = min over paths of max elevation'),
'C05':('Flood','same, with the pit queue; the two loops meet the same spec'),
'C06':('Flood','corollary of C04/C05 spec'),
'C07':('Flood, PitMask','HasDepressions loop invariant; Drained spec'),
'C08':('Flood','algebra of the spec'),
'C09':('Flood, Loop','measure: cells not yet closed; each pop closes exactly one queued cell'),
'C10':('Epsilon','invariant: every closed cell has a strictly lower witness; `next` any strictly increasing map'),
'C11':('Flowdirs','rank = closing time decreases along directions'),
'C12':('Watersheds','label inherited along the flow tree'),
'C13':('PitMask','same invariant as C04'),
'C14':('MaxDep','documented claim refuted; bounds proved'),
'C15':('Zhou, Wei, Trace','refinement of trace/potential queues to the fill spec'),
'C16':('Flow/FlowDir','fold over n = 1..8'),
'C17':('Flow/FlowDir, Flow/Accum','fold invariants; D4 slot mismatch refuted'),
'C18':('Flow/MultiFlow','ordered-field algebra; `pow` as real power'),
'C19':('Flow/Tarboton, Flow/DinfDirs','real analysis of facet slopes; refutation of the shares'),
'C20':('Flow/Kahn, Flow/Accum','Kahn loop invariant; Σ over upstream; every queue order'),
'C21':('Flow/Accum','Kahn loop; upstream set = reachability'),
'C22':('Flow/Upslope','queue flood = reachability; line drawing by case'),
'C23':('Flats/Core','case analysis'),
'C24':('Flats/Core, Flats/Mask','flood fill invariant'),
'C25':('Flats/Mask, Flats/Barnes','BFS level invariant = graph distance'),
'C26':('Flats/Barnes','frame theorems, refutations'),
'C27':('DS/Disjoint','refinement to generated equivalence over all histories'),
'C28':('DS/Disjoint','forest invariant'),
'C29':('DS/LRU','refinement to a recency list'),
'C30':('DS/Radix','bucket invariant over all monotone histories'),
'C31':('DS/Encoder','BitVec/Nat arithmetic'),
'C32':('DS/GridCell','comparison algebra with NaN as bottom'),
'C33':('DS/Managed','ownership state machine over histories'),
'C34':('Raster','list models; refutations'),
'C35':('Raster','list models'),
'C36':('Raster','list models; stale cache refuted'),
'C37':('IO/Native','byte codec round trip'),
'C38':('IO/Native','short-read model; refuted for every crash point'),
'C39':('IO/Layout','writer/parser over characters'),
'C40':('IO/Layout','string search'),
'C41':('IO/Tiled','refinement of the tile cache to one raster over all histories'),
'C42':('Fill/Bfs, Fill/Bucket','flood fill = reachability'),
'C43':('DepHier/Volume','sums over heldCells; merge of thread partials in any order'),
'C44':('DepHier/Move, DepHier/MoveTotal','mutual recursion; WaterInv; measure for termination'),
'C45':('DepHier/Lake','ordered-field algebra'),
'C46':('Breach, BreachThm','back-link invariant, visiting order'),
'C47':('Fill/Perimeter','counting folds'),
'C48':('Terrain/Attributes','3x3 stencil algebra; reals for slope/aspect'),
'C49':('Par/Tile, Par/Graph, Par/Merge, Par/Main, Par/Whole','tile spill graphs; path decomposition; global graph flood'),
'C50':('Spec, Props/SurfaceArea','ordered field'),
'C51':('Flood','path characterisation; refutation'),
'C52':('Flow/Race','interleaving semantics of read/add/write; lost update exhibited'),
'C53':('Flats/FlowFlats','gradient descent of the flat mask'),
'C54':('Props/FlowFlats','composition of C05, C16, C24, C25, C21'),
'C55':('Terrain/SurfaceArea','real geometry'),
'C56':('Flow/FlowDir','fold with random draw as oracle'),
'C57':('Flow/MultiFlow, Flow/Accum','acyclicity from strict descent + C20'),
'C58':('Flow/Dinf','Kahn loop on two-receiver graph'),
'C59':('DepHier/Flood','flood invariant with labels and paths'),
'C60':('DepHier/Flood, DepHier/Main','outlet-table invariant (sound and complete)'),
'C61':('DepHier/Tree','HierInv by induction over the sorted outlets (Kruskal)'),
'C62':('DepHier/Tree, DepHier/Main','cut property'),
'C63':('DepHier/Main','connectivity below a level'),
'C64':('Terrain/Attributes','real algebra; refutation'),
'C65':('DepHier/Lake, DepHier/LakeTotal','lake flood invariant'),
'C66':('Breach, BreachThm','as C46 plus flooding step; refutation'),
'C67':('Par/Prep','store/retrieve; refutation'),
'C68':('Par/Prep','edge drainage beside null tiles; refutation'),
'C69':('Par/Prep','fold minimum; refutation'),
'C70':('DepHier/Pits','Kahn-style loop with books invariant; refutation'),
'C71':('DepHier/Fill, FillThm, FillAll','composition of C70, C44, C45 with a tree of lakes; refutations'),
'C72':('DS/RadixLifo, DepHier/Heap','refinement (forward simulation)'),
'C74':('ParD8/*','per-tile accumulation equations cut at tile borders; Kahn invariant of the producer with 16-bit counters; path links by induction; uniqueness of the accumulation of an acyclic flow'),
'C75':('ParD8/Serial','case analysis and linear arithmetic'),
'C76':('Comm/Model, Comm/Thm','invariant over all interleavings by phase and ghost queues; progress lemma; decreasing rank'),
'C77':('TFlat/Model, TFlat/Thm','invariant with ghost assignment times; closedness of flats; finite rank'),
'C78':('Garb/Model, Garb/Thm','round invariant relating values to breadth-first distances, independent of the update order; iff for termination'),
'C79':('DepHier/LastLayer',"invariant of the hierarchy's construction about ocean links; induction along parents; C63"),
'C80':('Apps/FlowTools',"induction over the in-place loop; the table against TauDEM's documented geometry"),
'C81':('Apps/FlowTools','induction on the iterations left'),
'C82':('Apps/FlowTools','composition of C05, C07 and C53; mirror symmetry of the water level'),
'C83':('Array3D','arithmetic of the index map; list lemmas'),
'C84':('Gen/Perlin','table lookups reduced to a periodic lattice function; separable bound on the blend; gluing over the unit cubes for continuity'),
'C85':('Flats/FlowFlatsDinf',"the generic flat-mask theory (FlatSys) on the angles' classification; each facet's receivers descend the mask; lexicographic descent (elevation, mask) for acyclicity"),
'C86':('IO/Gdal','case analysis of the clamping arithmetic; linear arithmetic over the rationals for the affine transform'),
'C87':('IO/Gdal','association lists; induction over the sequence of saves and over the chain of programs'),
'C88':('IO/TiledSave','the cache simulation of C41 carried through the saving loop'),
'C89':('Verif.Apps.FillSpill, Verif.Props.FillSpill','composition of C42, C59-C63, C43 and C71: bucket fill gives the ocean labels, the flood and hierarchy give depressions with at most as many labels as cells, Fill-Spill-Merge theorems apply to their result; a path to the ocean leaves the depression over its spill elevation'),
'C90':('Verif.IO.Layout, Verif.Props.Layout','splitting at the last separator; injectivity of decimal notation'),
'C91':('Verif.Py.Model, Verif.Py.Thm, Verif.Py.Fill, Verif.Props.Python','memory as blocks with liveness, arrays as strided views; frame lemmas for wrap, read and write; composition with C15, C10 and C46'),
'C92':('Verif.Py.FillSpill, Verif.Props.PyFillSpill','frame lemmas for the arrays, composition of C43, C59, C61, C62 and C71; induction over the sequence of rain with the session as invariant'),
'C93':('Verif.Props.BreachLimits','the measuring and the digging loop are related to the same path by induction over the acyclic back-links; the run by invariant'),
'C94':('Verif.Props.DisjointDepth','invariant: ranks increase along parents and a root of rank k has at least 2^(k-M) elements'),
'C95':('Verif.IO.TiledRead, Verif.Props.TiledRead','cache invariant (the memory of a loaded tile is the reoriented file), induction over the accesses'),
'C96':('Verif.IO.TiledRead, Verif.Props.TiledRead','induction over the tiles on top of the cache invariant of C95; affine algebra for the places'),
'C97':('Verif.Apps.RasterTools, Verif.Props.RasterTools','fold over the flat indices = count over the cells (bijection), case analysis of the conversions'),
'C98':('Verif.Apps.RasterTools, Verif.Props.RasterTools','composition of the load/save model with C35; text lemmas for decimal numbers'),
'C99':('Verif.Apps.RasterTools, Verif.Props.RasterTools','fold invariant of the counting map; bijection between flat indices and cells'),
'C100':('Verif.Apps.RasterTools, Verif.Props.RasterTools','composition with C34; induction over the argument list; decimal text lemmas'),
'C101':('Verif.Props.Steepest over Verif.Flow.DinfDirs, Verif.Flats.FlowFlatsDinf, Verif.Flow.Tarboton','directional derivative of the triangulated surface as specification; Cauchy-Schwarz inside a triangle, fold invariant over the triangles'),
'C102':('Verif.Props.LayoutTools over Verif.Apps.LayoutTools, Verif.IO.Layout','scan invariant (every visited entry holds the side of its largest square), composition with the model of the layout file reader'),
'C103':('Verif.Props.LastUsed over Verif.IO.Tiled, Verif.IO.TiledRead, Verif.DS.LRU','the cache list is the first c of the list of distinct tiles by last use, an invariant of every access; distance in that list = number of distinct tiles since'),
'C104':('Verif.Props.PyGdal over Verif.Py.Gdal, Verif.Py.Rounding','rounding to p binary digits proved nearest, tie-to-even, idempotent and monotone; memory lemmas of C91'),
'C105':('Verif.Props.PyGdal over Verif.Py.Gdal','composition of C104, C91 and the theorems on filling; a monotone map commutes with filling; the epsilon fill only makes successors of input values'),
'C106':('Verif.Props.PyCompare over Verif.Py.Compare','C104 for both files and the memory lemmas of C91; extremes of a finite list; rounding to p digits is zero only at zero'),
'C107':('Verif.Props.Omp over Verif.Omp.{Model,Thm,Loops}','a small-step machine of threads with loads and stores; an ownership invariant (each number is constant, of one iteration, or free) proved along every schedule; each loop body shown to respect it and to leave the value of the sequential model'),
'C108':('Verif.Props.DinfRace over Verif.Flow.{DinfRace,Race,Dinf}','the increment machine of C52; counting by permutation of the rows; a concrete schedule evaluated in the kernel'),
'C109':('Verif.Props.FlatsOrder over Verif.Flats.{Push,Mask,Barnes}','appends under omp critical as atomic steps; a permutation invariant; the mask is determined by graph distances (C25), which do not mention the queues'),
'C110':('Verif.Props.Seeds over Verif.DepHier.{Seeds,Flood}','the user-declared reduction as an inductive relation over all combination trees; permutation, and uniqueness of sorted permutations'),
'C111':('Verif.Props.Rand over Verif.Rand.{Model,Thm}','mt19937 modelled word by word, libstdc++ distributions on exactly rounded doubles; simulation of two histories that agree on the engines; concrete engines by kernel evaluation'),
'C112':('Verif.Props.PyFlow over Verif.Py.Flow','three-dimensional NumPy views in the memory model of C91, composed with the accumulation of C20; the two-step equality by showing that the proportions read back are those the metric wrote'),
'C113':('Verif.Props.PyTerrain over Verif.Py.Terrain','the memory model of C91 composed with the attributes of C48; the library functions are shown equal to formulas written from the publications'),
'C114':('Verif.Props.Rounded over Verif.Flow.Rounded and Verif.Flow.RoundedDepth','simulation of the rounded loop by the exact loop of C20 with a relative error attached to every cell that depends on its longest upstream path and on the number of flows that have arrived'),
'C115':('Verif.Props.RoundedMetrics over Verif.Flow.RoundedMetrics','rounding-error analysis over the reals: weights (rpow with Bernoulli and exp bounds), sum of floats in a double, reciprocal, product, store; then C114 and C57 for the accumulation'),
'C116':('Verif.Props.Underflow over Verif.Flow.Underflow','float stores with subnormals; the largest weight of a cell against a crude bound of the sum'),
'C117':('Verif.Props.VolumeR over Verif.DepHier.VolumeR','rounded run simulated by the exact run (C43_volumes), relation between count, sum and computed sum closed under addition'),
'C118':('Verif.Props.RasterBuild over Verif.RasterBuild','loops over flat lists by induction; max as min of the dual order'),
'C119':('Verif.Props.DepTools over Verif.Apps.DepTools','composition of the file model with the algorithm theorems; lemmas on std::stoul by computation on digit lists'),
'C120':('Verif.Props.FlowApps over Verif.Apps.FlowApps','composition of the file model with C57 and the attribute theorems'),
'C121':('Verif.Props.HierTool over Verif.Apps.HierTool, Verif.DepHier.OceanPass','composition of the file model with the hierarchy invariant; a further invariant for ocean links'),
'C122':('Verif.Props.DirTools over Verif.Apps.DirTools','composition of the file model with the fill and flat-resolution theorems; loop invariant for cells outside the raster'),
'C123':('Verif.Props.Progress over Verif.Progress.Bar','state invariant over histories of calls; characterisation of one update'),
'C124':('Verif.Props.ShowTools over Verif.Apps.ShowTools','text written is read back by lines, words and stoi; induction over lines and items'),
'C125':('Verif.Props.ShowTools over Verif.Apps.ShowTools','text read back by lines and words; clipped ranges characterised by membership'),
'C73':('DepHier/Lifo, PitFlat','stack-discipline invariant of the flood'),
}
try:
    from design_more import MORE
    HOW.update(MORE)
except ImportError: pass
man={c['property']:c for c in json.load(open(R+'/MANIFEST.json'))['claims']}
rows=[]
for l in open(R+'/properties.jsonl'):
    p=json.loads(l); i=p['id']
    f,how=HOW.get(i,('',''))
    c=man.get(i,{})
    rows.append(f"| {i} | {p['title']} | `{f}` | {how} | {c.get('status','')} |")
t=open(R+'/DESIGN.md').read()
a='<!-- table -->'; b='<!-- /table -->'
i=t.index(a); j=t.index(b)
t=t[:i]+a+'\n| id | property | model (Verif/…) | proof method | status |\n|----|----|----|----|----|\n'+'\n'.join(rows)+'\n'+t[j:]
open(R+'/DESIGN.md','w').write(t)
