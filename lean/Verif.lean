import Verif.Props.Lru
import Verif.Props.StringTable
import Verif.Props.Streams
import Verif.Props.Tiles
import Verif.Props.Bbox
import Verif.Props.Mercator
import Verif.Props.Ewah
import Verif.Props.MemStore
import Verif.Props.PersistentStore
import Verif.Props.Clipper
import Verif.Props.ElementStore
import Verif.Props.GeoStore
import Verif.Props.MeshCache
import Verif.Props.MeshPool
import Verif.Props.QuadKeyBuilder
import Verif.Props.Style
import Verif.Props.StyleEval
import Verif.Props.Color
import Verif.Props.Osm
import Verif.Props.Multipolygon
import Verif.Props.OsmRelations
import Verif.Props.Quaternion
import Verif.Props.Lsys
import Verif.Props.Elevation
import Verif.Props.MeshBuilder
import Verif.Props.Polygon
import Verif.Props.LineGrid
import Verif.Props.Solids
import Verif.Props.SolidsShapeSpec
import Verif.Props.SolidsShape
import Verif.Props.Noise
import Verif.Props.Pbf
import Verif.Props.Shape
import Verif.Props.Api
import Verif.Props.Strings
import Verif.Props.Geometry
import Verif.Props.Json
import Verif.Props.JsonRefuse
import Verif.Props.MapCss
import Verif.Props.MapCssMissing
import Verif.Model.Geodesy
import Verif.Props.GeodesySpec
import Verif.Props.Geodesy
import Verif.Model.StyleValue
import Verif.Props.StyleValueSpec
import Verif.Props.StyleValue
import Verif.Props.TurtleSpec
import Verif.Props.Turtle
import Verif.Model.OsmStream
import Verif.Props.OsmStreamSpec
import Verif.Props.OsmStream
import Verif.Props.ShownSpec
import Verif.Props.Shown
import Verif.Model.Building
import Verif.Props.BuildingSpec
import Verif.Props.Building
import Verif.Props.BuildingClosed
import Verif.Props.Tags
import Verif.Model.Along
import Verif.Model.Barrier
import Verif.Props.AlongSpec
import Verif.Props.Along
import Verif.Props.BarrierSpec
import Verif.Props.Barrier
import Verif.Model.Terrain
import Verif.Props.TerrainSpec
import Verif.Props.Terrain
import Verif.Props.PaintedSpec
import Verif.Props.Painted
import Verif.Props.TerrainMeshSpec
import Verif.Props.TerrainMesh
import Verif.Model.Roofs
import Verif.Props.RoofsSpec
import Verif.Props.RoofsRound
import Verif.Props.RoofsMansard
import Verif.Props.RoofsSkillion
import Verif.Props.Curved
import Verif.Props.LsysDraw
import Verif.Props.LsysText
import Verif.Props.Atlas
import Verif.Props.OsmXml
import Verif.Props.CacheBuilder
import Verif.Props.Import
import Verif.Props.Resolve
import Verif.Props.ImportRelations
import Verif.Props.LoadTile
import Verif.Props.Surface
import Verif.Props.DiskImport
import Verif.Props.ParallelSearch
import Verif.Props.FindText
import Verif.Props.PbfFile
import Verif.Props.PbfDamagedSpec
import Verif.Props.PbfDamaged
import Verif.Props.JsonImport
import Verif.Props.ShapeImport
import Verif.Model.Session
import Verif.Props.SessionSpec
import Verif.Props.Session
import Verif.Model.LazyTable
import Verif.Props.LazyTableSpec
import Verif.Props.LazyTable
import Verif.Model.Gradient
import Verif.Props.GradientSpec
import Verif.Props.Gradient
import Verif.Model.SessionText
import Verif.Props.SessionTextSpec
import Verif.Props.SessionText
import Verif.Model.BuildingSheet
import Verif.Props.BuildingSheetSpec
import Verif.Props.BuildingSheet
import Verif.Model.TerrainSheet
import Verif.Props.TerrainSheetSpec
import Verif.Props.TerrainSheet
import Verif.Model.Palette
import Verif.Props.PaletteSpec
import Verif.Props.Palette
import Verif.Model.BarrierSheet
import Verif.Props.BarrierSheetSpec
import Verif.Props.BarrierSheet
import Verif.Model.PlantSheet
import Verif.Props.PlantSheetSpec
import Verif.Props.PlantSheet
import Verif.Model.CellTable
import Verif.Props.CellTableSpec
import Verif.Props.CellTable
import Verif.Props.RoofSheetSpec
import Verif.Props.RoofSheet
import Verif.Props.RoofColorsSpec
import Verif.Props.RoofColors
import Verif.Props.DirectLoadSpec
import Verif.Props.DirectLoad
import Verif.Props.DirectHouse
import Verif.Props.OsmWordsSpec
import Verif.Props.OsmWords
import Verif.Props.DictionarySpec
import Verif.Props.Dictionary
import Verif.Props.SceneSpec
import Verif.Props.Scene
import Verif.Props.OsmIdsSpec
import Verif.Props.OsmIds
import Verif.Props.OsmTagged
import Verif.Model.RingContains
import Verif.Props.RingNest
import Verif.Props.OsmTidySpec
import Verif.Props.OsmTidy
import Verif.Props.StyleRefuseSpec
import Verif.Props.StyleRefuse
import Verif.Props.SheetRefuse
import Verif.Props.ElevationRefuse
import Verif.Props.StreamsDamagedSpec
import Verif.Props.StreamsDamaged
import Verif.Model.TerrainClip
import Verif.Props.TerrainClip
import Verif.Props.StyleTagSpec
import Verif.Props.StyleTag
import Verif.Props.GradientRefuse
import Verif.Props.RefuseMore
import Verif.Props.ShapeRefuse
import Verif.Props.PlantRefuse
