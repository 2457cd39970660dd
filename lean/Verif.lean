import Verif.Band.Props
import Verif.Band.IndexerProps
import Verif.Table.Props
import Verif.Table.HistoryProps
import Verif.Vec.QuadTreeProps
import Verif.Vec.PlanarProps
import Verif.Vec.PolygonProps
import Verif.Vec.TransformProps
import Verif.Vec.NearestProps
import Verif.Grid.CoordProps
import Verif.Grid.WindowProps
import Verif.Grid.SampleProps
import Verif.Grid.MergeProps
import Verif.Grid.MaskProps
import Verif.Grid.MaskPolyProps
import Verif.Grid.SkewProps
import Verif.Vec.BoundaryProps
import Verif.Grid.CodecProps
import Verif.Vec.RTreeProps
import Verif.Vec.RTreeTwo
import Verif.Vec.SweepProps
import Verif.Vec.HullProps
import Verif.Vec.HullAngle
import Verif.Geod.AngleProps
import Verif.Geod.TileProps
import Verif.Geod.BrentProps
import Verif.Grid.SurfaceProps
import Verif.Grid.SurfaceReal
import Verif.Vec.ShapeProps
import Verif.Vec.CacheProps
import Verif.Geod.PlaneProps
import Verif.Geod.SphereProps
import Verif.Vec.AlongProps
import Verif.Vec.LengthProps
import Verif.Vec.WindProps
import Verif.Vec.MultiQueryProps
import Verif.Geod.GeodesicProps
import Verif.Geod.InverseProps
import Verif.Geod.SphAreaProps
import Verif.Geod.EllAreaProps
import Verif.Vec.JoinProps
import Verif.Vec.FitProps
import Verif.Vec.ExchangeProps
import Verif.Vec.GpxProps
import Verif.Grid.ResampleProps
import Verif.Grid.GridOpsProps
import Verif.Grid.Profile
import Verif.Grid.ProfileProps
import Verif.Geod.NearProjProps
import Verif.Geod.LatBoundProps
import Verif.Vec.ObjectsProps
import Verif.Vec.SharingProps
import Verif.Geod.Ellps
import Verif.Geod.EllpsProps
import Verif.Vec.ShapeFile
import Verif.Vec.ShapeFileProps
import Verif.Mem.Heap
import Verif.Mem.HeapLemmas
import Verif.Mem.HeapProps
import Verif.Mem.RTreeMem
import Verif.Mem.RTreeMemProps
import Verif.Geod.PolarContains
import Verif.Geod.PolarContainsProps
import Verif.Geod.CrossSph
import Verif.Geod.CrossSphProps
import Verif.Geod.HullSph
import Verif.Geod.HullSphGeom
import Verif.Geod.HullSphProps
import Verif.Geod.CrossPoint
import Verif.Geod.CrossSweep
import Verif.Geod.CrossSweepProps
import Verif.Geod.CrossTurn
import Verif.Float.CoordProps
import Verif.Float.GridOpsProps
import Verif.Float.QuadTreeProps
import Verif.Float.RTree
import Verif.Float.Contains
import Verif.Float.Angle
import Verif.Grid.MaskAway
import Verif.Grid.CoordKeyProps
import Verif.Table.JsonProps
import Verif.Vec.MemberProps
import Verif.Float.Tile
import Verif.Float.Area
import Verif.Float.Cross
import Verif.Vec.Vertices
import Verif.Vec.VerticesProps
import Verif.Vec.Rings
import Verif.Vec.RingsProps
import Verif.Vec.Systems
import Verif.Vec.SystemsProps
import Verif.Vec.CrossSystem
import Verif.Vec.CrossSystemProps
import Verif.Vec.Nested
import Verif.Vec.NestedProps
import Verif.Vec.CrsText
import Verif.Vec.CrsTextProps
import Verif.Grid.Apply
import Verif.Grid.ApplyProps
import Verif.Grid.Sharing
import Verif.Grid.SharingProps
import Verif.Grid.CopySystem
import Verif.Grid.CopySystemProps
import Verif.Grid.ExtentIn
import Verif.Grid.ExtentInProps
import Verif.Float.Sample
import Verif.Float.Length
import Verif.Grid.Typed
import Verif.Grid.TypedProps
import Verif.Vec.AlongEnds
import Verif.Float.Affine
import Verif.Float.Surface
import Verif.Float.Nearest
import Verif.Geod.AreaSeries
import Verif.Geod.Poly
import Verif.Geod.SeriesTerms
import Verif.Geod.SeriesBounds
import Verif.Geod.ForwardSeries
import Verif.Geod.InverseSeries
import Verif.Vec.Crossings
import Verif.Vec.CrossingsProps
import Verif.Geod.SphereAzimuth
import Verif.Float.Hull
import Verif.Float.SphereDist
import Verif.Vec.FlatDist
import Verif.Float.TileRow
import Verif.Float.TileCorner
import Verif.Float.TileCornerFail
import Verif.Vec.Collinear
import Verif.Geod.FarSide
import Verif.Vec.ShapeName
import Verif.Band.ShapeProps
