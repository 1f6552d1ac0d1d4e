import Verif.Props.Grid
import Verif.Props.Flood
import Verif.Props.Flood2
import Verif.Props.Flood3
import Verif.Props.MaxDep
import Verif.Props.Disjoint
import Verif.Props.LRU
import Verif.Props.Encoder
import Verif.Props.Radix
import Verif.Props.GridCell
import Verif.Props.Managed
import Verif.Props.Raster
import Verif.Props.Native
import Verif.Props.Layout
import Verif.Props.Tiled
import Verif.Props.FlowDir
import Verif.Props.Accum
import Verif.Props.Race
import Verif.Props.Flats
import Verif.Fill.Bucket
import Verif.Props.Fill
import Verif.Props.SurfaceArea
import Verif.Props.FlowFlats
import Verif.Props.Upslope
import Verif.Props.MultiFlow
import Verif.Props.Tarboton
import Verif.Props.Dinf
import Verif.DepHier.Flood
import Verif.DepHier.Tree
import Verif.DepHier.Main
import Verif.Props.DepHier
import Verif.DepHier.Volume
import Verif.Props.Volume
import Verif.DepHier.Move
import Verif.Props.Move
import Verif.Terrain.Attributes
import Verif.Props.Terrain
import Verif.DepHier.Lake
import Verif.DepHier.LakeTotal
import Verif.Props.Lake
import Verif.Trace
import Verif.Zhou
import Verif.Wei
import Verif.Props.FillVariants
import Verif.Breach
import Verif.BreachThm
import Verif.Props.Breach
import Verif.Par.Tile
import Verif.Par.Graph
import Verif.Par.Merge
import Verif.Par.Main
import Verif.Par.Whole
import Verif.Par.Prep
import Verif.Props.Parallel
import Verif.DepHier.Pits
import Verif.Props.Pits
import Verif.DepHier.Fill
import Verif.DepHier.FillThm
import Verif.DepHier.FillAll
import Verif.DepHier.Lifo
import Verif.DepHier.PitFlat
import Verif.DS.RadixLifo
import Verif.DepHier.Heap
import Verif.Props.FSM
import Verif.Props.Lifo
import Verif.ParD8.Serial
import Verif.ParD8.Model
import Verif.ParD8.Path
import Verif.ParD8.Graph
import Verif.ParD8.Sum
import Verif.ParD8.TileRound
import Verif.ParD8.Cross
import Verif.ParD8.Main
import Verif.Props.ParD8
import Verif.Comm.Model
import Verif.Comm.Thm
import Verif.Props.Comm
import Verif.TFlat.Model
import Verif.TFlat.Thm
import Verif.Props.TFlat
import Verif.Garb.Model
import Verif.Garb.Thm
import Verif.Props.Garb
import Verif.DepHier.LastLayer
import Verif.Props.LastLayer
import Verif.Apps.FlowTools
import Verif.Props.FlowTools
import Verif.Array3D
import Verif.Props.Array3D
import Verif.Gen.Perlin
import Verif.Props.Perlin
import Verif.Flats.FlowFlatsDinf
import Verif.Props.FlatsDinf
import Verif.IO.Gdal
import Verif.IO.TiledSave
import Verif.Props.Gdal
import Verif.Props.TiledSave
import Verif.Apps.FillSpill
import Verif.Props.FillSpill
import Verif.Py.Model
import Verif.Py.Thm
import Verif.Py.Fill
import Verif.Props.Python
import Verif.Py.FillSpill
import Verif.Props.PyFillSpill
import Verif.Props.BreachLimits
import Verif.Props.DisjointDepth
import Verif.IO.TiledRead
import Verif.Props.TiledRead
import Verif.Apps.RasterTools
import Verif.Props.RasterTools
import Verif.Props.Steepest
import Verif.Apps.LayoutTools
import Verif.Props.LayoutTools
import Verif.Props.LastUsed
import Verif.Props.PyGdal
import Verif.Props.PyCompare
import Verif.Props.Omp
import Verif.Props.DinfRace
import Verif.Props.FlatsOrder
import Verif.Props.Seeds
import Verif.Props.Rand
import Verif.Props.PyFlow
import Verif.Props.PyTerrain
import Verif.Props.Rounded
import Verif.Flow.RoundedMetrics
import Verif.Props.RoundedMetrics
import Verif.Flow.Underflow
import Verif.Props.Underflow
import Verif.DepHier.VolumeR
import Verif.Props.VolumeR
import Verif.RasterBuild
import Verif.Props.RasterBuild
import Verif.Apps.DepTools
import Verif.Props.DepTools
import Verif.Apps.FlowApps
import Verif.Props.FlowApps
import Verif.DepHier.OceanPass
import Verif.Apps.HierTool
import Verif.Props.HierTool
import Verif.Apps.DirTools
import Verif.Props.DirTools
import Verif.Progress.Bar
import Verif.Props.Progress
import Verif.Apps.ShowTools
import Verif.Props.ShowTools
