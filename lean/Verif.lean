import Verif.Model.Bezier
import Verif.Model.BezierRounded
import Verif.Model.Boolean
import Verif.Model.Bytes
import Verif.Model.CubicRounded
import Verif.Model.Decimal
import Verif.Model.Factory
import Verif.Model.FactoryRounded
import Verif.Model.FilesDouble
import Verif.Model.Float32
import Verif.Model.Geometry
import Verif.Model.GeometryRounded
import Verif.Model.Image
import Verif.Model.ImageRounded
import Verif.Model.Kernel
import Verif.Model.LightRounded
import Verif.Model.Mandelbrot
import Verif.Model.Measure
import Verif.Model.MeasureRounded
import Verif.Model.Mesh
import Verif.Model.MeshUtil
import Verif.Model.Nurbs
import Verif.Model.NurbsFactory
import Verif.Model.NurbsFactoryRounded
import Verif.Model.NurbsRounded
import Verif.Model.NurbsSurface
import Verif.Model.Obj
import Verif.Model.PointOps
import Verif.Model.RenderRounded
import Verif.Model.Renderer
import Verif.Model.Rounded
import Verif.Model.Solid
import Verif.Model.Step
import Verif.Model.Stl
import Verif.Model.Tessellate
import Verif.Model.Transform
import Verif.Model.TransformRounded
import Verif.Spec.BSpline
import Verif.Spec.Geometry
import Verif.Spec.Mesh
import Verif.Spec.Nurbs
import Verif.Spec.NurbsSurface
import Verif.Spec.Soup
import Verif.Lemmas.Appr
import Verif.Lemmas.BSpline
import Verif.Lemmas.Boundary
import Verif.Lemmas.Build
import Verif.Lemmas.Bytes
import Verif.Lemmas.Closed
import Verif.Lemmas.Cyclic
import Verif.Lemmas.Elevate
import Verif.Lemmas.Factory
import Verif.Lemmas.Geometry
import Verif.Lemmas.Icosa
import Verif.Lemmas.IcosaGrid
import Verif.Lemmas.Ieee
import Verif.Lemmas.IeeeEval
import Verif.Lemmas.Mesh
import Verif.Lemmas.MeshStep
import Verif.Lemmas.Nurbs
import Verif.Lemmas.NurbsBuild
import Verif.Lemmas.NurbsNet
import Verif.Lemmas.NurbsSurface
import Verif.Lemmas.Point
import Verif.Lemmas.Rounding
import Verif.Lemmas.Soup
import Verif.Lemmas.Topology
import Verif.Props.Bezier
import Verif.Props.BezierMesh
import Verif.Props.BezierRounded
import Verif.Props.Bmp
import Verif.Props.BmpFormat
import Verif.Props.Boolean
import Verif.Props.BoundingBox
import Verif.Props.CameraRounded
import Verif.Props.Checks
import Verif.Props.Convex
import Verif.Props.CubicRounded
import Verif.Props.Decimal
import Verif.Props.FactoryDouble
import Verif.Props.FactoryMeasured
import Verif.Props.FactoryRounded
import Verif.Props.FilesDouble
import Verif.Props.Float32
import Verif.Props.Geodesic
import Verif.Props.GeodesicAccuracy
import Verif.Props.GeodesicClosed
import Verif.Props.GeodesicRounded
import Verif.Props.GeometryRounded
import Verif.Props.Grid
import Verif.Props.Image
import Verif.Props.ImageRounded
import Verif.Props.ImageUtil
import Verif.Props.KernelLinks
import Verif.Props.Kernels
import Verif.Props.LightRounded
import Verif.Props.Mandelbrot
import Verif.Props.MandelbrotFloat
import Verif.Props.MandelbrotRange
import Verif.Props.Measure
import Verif.Props.MeasureRounded
import Verif.Props.Merge
import Verif.Props.MergeDouble
import Verif.Props.MergeStable
import Verif.Props.MeshHistory
import Verif.Props.MeshPolygon
import Verif.Props.MeshUtil
import Verif.Props.NurbsArea
import Verif.Props.NurbsBuild
import Verif.Props.NurbsContinuous
import Verif.Props.NurbsCurve
import Verif.Props.NurbsElevate
import Verif.Props.NurbsFactoryRounded
import Verif.Props.NurbsHeights
import Verif.Props.NurbsInsert
import Verif.Props.NurbsLipschitz
import Verif.Props.NurbsLocal
import Verif.Props.NurbsMesh
import Verif.Props.NurbsMeshRounded
import Verif.Props.NurbsRevolve
import Verif.Props.NurbsRounded
import Verif.Props.NurbsSeams
import Verif.Props.NurbsShapes
import Verif.Props.NurbsShapesDouble
import Verif.Props.NurbsShapesMesh
import Verif.Props.NurbsSolidRounded
import Verif.Props.NurbsSolids
import Verif.Props.NurbsSpread
import Verif.Props.NurbsSurface
import Verif.Props.NurbsVolume
import Verif.Props.NurbsWatertight
import Verif.Props.Obj
import Verif.Props.ObjNumbers
import Verif.Props.ObjText
import Verif.Props.Plane
import Verif.Props.Platonic
import Verif.Props.PointOps
import Verif.Props.PolylineRounded
import Verif.Props.ReloadDouble
import Verif.Props.Renderer
import Verif.Props.RendererAim
import Verif.Props.RendererCover
import Verif.Props.RendererDepth
import Verif.Props.RendererLight
import Verif.Props.RendererLine
import Verif.Props.RendererRounded
import Verif.Props.RendererView
import Verif.Props.RoundAccuracy
import Verif.Props.RoundAccuracyMore
import Verif.Props.Segment
import Verif.Props.SmoothMesh
import Verif.Props.SmoothSolids
import Verif.Props.Solid
import Verif.Props.Step
import Verif.Props.StepSurface
import Verif.Props.StepText
import Verif.Props.Stl
import Verif.Props.Surfaces
import Verif.Props.Tessellate
import Verif.Props.TessellateDouble
import Verif.Props.Transform
import Verif.Props.TransformRounded
import Verif.Props.TriTri
import Verif.Props.Triangle
import Verif.Props.Vector
import Verif.Props.Volumes
import Verif.Props.Weld
import Verif.Examples.Files
import Verif.Examples.Geometry
import Verif.Examples.Mesh
import Verif.Examples.Nurbs
import Verif.Examples.Renderer
