import Verif.Model.Basic
import Verif.Model.Hash
import Verif.Model.Container
import Verif.Model.SnakeMotion
import Verif.Model.Mesh
import Verif.Model.Flood
import Verif.Model.Border
import Verif.Model.Order
import Verif.Model.Geometry
import Verif.Model.Voxel
import Verif.Model.MeshIO
import Verif.Model.Text
import Verif.Model.Config
import Verif.Model.Json
import Verif.Model.Sqp
import Verif.Model.Triplet
import Verif.Model.LogScale
import Verif.Model.MatTools
import Verif.Model.RsvsMath
import Verif.Model.Centroid
import Verif.Model.CentroidHess
import Verif.Model.CalcTriangle
import Verif.Model.Triangulate
import Verif.Model.GridCut
import Verif.Model.Refine
import Verif.Model.Lineage
import Verif.Model.SnakeJoin
import Verif.Model.DesignVars
import Verif.Model.Spawn
import Verif.Model.Close
import Verif.Model.EdgeLength
import Verif.Model.Holes
import Verif.Model.Curvature
import Verif.Model.EdgeMetric
import Verif.Model.InnerPoints
import Verif.Model.SpawnStep
import Verif.Model.SphereStep
import Verif.Model.BoxDomain
import Verif.Model.TetInput
import Verif.Model.Su2
import Verif.Model.TetMesh
import Verif.Model.Ray
import Verif.Model.Voronoi
import Verif.Model.Reorder
import Verif.Model.SpawnRemove
import Verif.Model.ParentBound
import Verif.Model.MergeSurf
import Verif.Model.MergeEdge
import Verif.Model.MergeVolu
import Verif.Model.SameSurf
import Verif.Model.VertPass
import Verif.Model.Surf2D
import Verif.Model.Tecplot
import Verif.Model.SnakeCheck
import Verif.Model.SmoothStep
import Verif.Model.StepLimit
import Verif.Model.FaceFan
import Verif.Model.PointCell
import Verif.Model.Orient
import Verif.Model.VertNormal
import Verif.Model.Laplacian
import Verif.Model.ForceClose
import Verif.Model.SplitSurf
import Verif.Model.PointGrid
import Verif.Model.FinishMesh
import Verif.Model.FlattenFaces
import Verif.Model.VelocityEngine
import Verif.Model.EndPass
import Verif.Model.Collapse
import Verif.Model.Almost
import Verif.Model.TriSoup
import Verif.Model.CellVolume
import Verif.Model.CutEdges
import Verif.Model.CutSurf
import Verif.Spec.Container
import Verif.Spec.SnakeMotion
import Verif.Spec.Mesh
import Verif.Spec.Flood
import Verif.Spec.Border
import Verif.Spec.Order
import Verif.Spec.Geometry
import Verif.Spec.Voxel
import Verif.Spec.MeshIO
import Verif.Spec.Config
import Verif.Spec.Json
import Verif.Spec.Sqp
import Verif.Spec.Triplet
import Verif.Spec.Calculus
import Verif.Spec.Triangle
import Verif.Spec.Centroid
import Verif.Spec.Snake
import Verif.Spec.Triangulate
import Verif.Spec.TriangMaintain
import Verif.Spec.Refine
import Verif.Spec.Coarsen
import Verif.Spec.Lineage
import Verif.Spec.SnakeJoin
import Verif.Spec.GridCut
import Verif.Spec.DesignVars
import Verif.Spec.Spawn
import Verif.Spec.Arrive
import Verif.Spec.Close
import Verif.Spec.EdgeLength
import Verif.Spec.Holes
import Verif.Spec.InnerPoints
import Verif.Spec.SpawnStep
import Verif.Spec.SphereStep
import Verif.Spec.BoxDomain
import Verif.Spec.TetInput
import Verif.Spec.Su2
import Verif.Spec.TetMesh
import Verif.Spec.Ray
import Verif.Spec.Voronoi
import Verif.Spec.Reorder
import Verif.Spec.SpawnRemove
import Verif.Spec.ParentBound
import Verif.Spec.MergeSurf
import Verif.Spec.MergeEdge
import Verif.Spec.MergeVolu
import Verif.Spec.SameSurf
import Verif.Spec.VertPass
import Verif.Spec.Surf2D
import Verif.Spec.Tecplot
import Verif.Spec.SnakeCheck
import Verif.Spec.SmoothStep
import Verif.Spec.StepLimit
import Verif.Spec.FaceFan
import Verif.Spec.PointCell
import Verif.Spec.Orient
import Verif.Spec.VertNormal
import Verif.Spec.Laplacian
import Verif.Spec.ForceClose
import Verif.Spec.SplitSurf
import Verif.Spec.PointGrid
import Verif.Spec.FinishMesh
import Verif.Spec.FlattenFaces
import Verif.Spec.VelocityEngine
import Verif.Spec.EndPass
import Verif.Spec.Switch
import Verif.Spec.Singular
import Verif.Spec.Collapse
import Verif.Spec.Almost
import Verif.Spec.Detect
import Verif.Spec.TriSoup
import Verif.Spec.CellVolume
import Verif.Spec.CutEdges
import Verif.Spec.CutSurf
import Verif.Lemmas.Container
import Verif.Lemmas.Hash
import Verif.Lemmas.Snak
import Verif.Lemmas.Motion
import Verif.Lemmas.MotionOrder
import Verif.Lemmas.Mesh
import Verif.Lemmas.MeshCheck
import Verif.Lemmas.MeshCrop
import Verif.Lemmas.MeshDetach
import Verif.Lemmas.MeshOrder
import Verif.Lemmas.MeshShift
import Verif.Lemmas.MeshSwitch
import Verif.Lemmas.MeshTest
import Verif.Lemmas.Flood
import Verif.Lemmas.FloodMesh
import Verif.Lemmas.FloodSnake
import Verif.Lemmas.FloodVolu
import Verif.Lemmas.Border
import Verif.Lemmas.Order
import Verif.Lemmas.OrderLoop
import Verif.Lemmas.OrderMesh
import Verif.Lemmas.Geometry
import Verif.Lemmas.GeometryCentre
import Verif.Lemmas.GeometryScale
import Verif.Lemmas.Voxel
import Verif.Lemmas.VoxelGrid
import Verif.Lemmas.VoxelSound
import Verif.Lemmas.FillFile
import Verif.Lemmas.MeshIO
import Verif.Lemmas.Text
import Verif.Lemmas.Config
import Verif.Lemmas.Json
import Verif.Lemmas.JsonFlat
import Verif.Lemmas.JsonTree
import Verif.Lemmas.JsonUpdate
import Verif.Lemmas.Sqp
import Verif.Lemmas.Triplet
import Verif.Lemmas.Calculus
import Verif.Lemmas.Centroid
import Verif.Lemmas.CentroidAuto
import Verif.Lemmas.CentroidHess
import Verif.Lemmas.CentroidSecond
import Verif.Lemmas.CalcAssembly
import Verif.Lemmas.CalcTriangle
import Verif.Lemmas.Triangulate
import Verif.Lemmas.TriangMaintain
import Verif.Lemmas.Refine
import Verif.Lemmas.Coarsen
import Verif.Lemmas.Lineage
import Verif.Lemmas.SnakeJoin
import Verif.Lemmas.GridCut
import Verif.Lemmas.Spawn
import Verif.Lemmas.Close
import Verif.Lemmas.CloseMerge
import Verif.Lemmas.Holes
import Verif.Lemmas.EdgeLength
import Verif.Lemmas.Curvature
import Verif.Lemmas.EdgeMetric
import Verif.Lemmas.InnerPoints
import Verif.Lemmas.SpawnStep
import Verif.Lemmas.SphereStep
import Verif.Lemmas.BoxDomain
import Verif.Lemmas.TetInput
import Verif.Lemmas.Su2
import Verif.Lemmas.TetMesh
import Verif.Lemmas.Voronoi
import Verif.Lemmas.Reorder
import Verif.Lemmas.SpawnRemove
import Verif.Lemmas.ParentBound
import Verif.Lemmas.MergeAll
import Verif.Lemmas.MergeScan
import Verif.Lemmas.MergeSurf
import Verif.Lemmas.MergeTop
import Verif.Lemmas.MergeChains
import Verif.Lemmas.MergeEdge
import Verif.Lemmas.MergePhase
import Verif.Lemmas.MergeVolu
import Verif.Lemmas.SameSurf
import Verif.Lemmas.SameSurfTop
import Verif.Lemmas.VertMerge
import Verif.Lemmas.VertPass
import Verif.Lemmas.VertRemove
import Verif.Lemmas.Surf2D
import Verif.Lemmas.Tecplot
import Verif.Lemmas.SnakeCheck
import Verif.Lemmas.TecplotZone
import Verif.Lemmas.SmoothLap
import Verif.Lemmas.SmoothPlane
import Verif.Lemmas.SmoothStep
import Verif.Lemmas.StepLimit
import Verif.Lemmas.FaceFan
import Verif.Lemmas.FaceFanAll
import Verif.Lemmas.FaceFanMade
import Verif.Lemmas.FaceFanMesh
import Verif.Lemmas.PointCell
import Verif.Lemmas.Orient
import Verif.Lemmas.OrientBlock
import Verif.Lemmas.OrientFlood
import Verif.Lemmas.VertNormal
import Verif.Lemmas.VertNormalMesh
import Verif.Lemmas.VertNormalOut
import Verif.Lemmas.VertNormalSign
import Verif.Lemmas.VertNormalVert
import Verif.Lemmas.Laplacian
import Verif.Lemmas.LaplacianMesh
import Verif.Lemmas.ForceClose
import Verif.Lemmas.ForceCloseMesh
import Verif.Lemmas.SplitSurf
import Verif.Lemmas.SplitSurfMesh
import Verif.Lemmas.SplitSurfGrow
import Verif.Lemmas.SplitSurfOrder
import Verif.Lemmas.PointGrid
import Verif.Lemmas.FinishMesh
import Verif.Lemmas.FlattenFaces
import Verif.Lemmas.EndPass
import Verif.Lemmas.Switch
import Verif.Lemmas.Singular
import Verif.Lemmas.Almost
import Verif.Lemmas.Detect
import Verif.Lemmas.TriSoup
import Verif.Lemmas.CutEdges
import Verif.Lemmas.CutSurf
import Verif.Props.Container
import Verif.Props.Hash
import Verif.Props.SnakeMotion
import Verif.Props.Mesh
import Verif.Props.Flood
import Verif.Props.Border
import Verif.Props.Order
import Verif.Props.Geometry
import Verif.Props.Voxel
import Verif.Props.MeshIO
import Verif.Props.Config
import Verif.Props.Json
import Verif.Props.Sqp
import Verif.Props.SqpActive
import Verif.Props.Triplet
import Verif.Props.LogScale
import Verif.Props.MatTools
import Verif.Props.Triangle
import Verif.Props.TriangleArea
import Verif.Props.Centroid
import Verif.Props.CentroidHess
import Verif.Props.CalcAssembly
import Verif.Props.CalcTriangle
import Verif.Props.Triangulate
import Verif.Props.TriangMaintain
import Verif.Props.Refine
import Verif.Props.Coarsen
import Verif.Props.Lineage
import Verif.Props.SnakeJoin
import Verif.Props.GridCut
import Verif.Props.DesignVars
import Verif.Props.Spawn
import Verif.Props.Arrive
import Verif.Props.Close
import Verif.Props.Holes
import Verif.Props.EdgeLength
import Verif.Props.Curvature
import Verif.Props.EdgeMetric
import Verif.Props.InnerPoints
import Verif.Props.SpawnStep
import Verif.Props.SphereStep
import Verif.Props.BoxDomain
import Verif.Props.TetInput
import Verif.Props.Su2
import Verif.Props.TetMesh
import Verif.Props.Ray
import Verif.Props.Reorder
import Verif.Props.Voronoi
import Verif.Props.SpawnRemove
import Verif.Props.ParentBound
import Verif.Props.MergeSurf
import Verif.Props.MergeEdge
import Verif.Props.SameSurf
import Verif.Props.MergeVolu
import Verif.Props.VertPass
import Verif.Props.Surf2D
import Verif.Props.SnakeCheck
import Verif.Props.Tecplot
import Verif.Props.SmoothLap
import Verif.Props.SmoothStep
import Verif.Props.StepLimit
import Verif.Props.FaceFan
import Verif.Props.PointCell
import Verif.Props.Orient
import Verif.Props.VertNormal
import Verif.Props.Laplacian
import Verif.Props.ForceClose
import Verif.Props.SplitSurf
import Verif.Props.PointGrid
import Verif.Props.FinishMesh
import Verif.Props.FlattenFaces
import Verif.Props.VelocityEngine
import Verif.Props.EndPass
import Verif.Props.Switch
import Verif.Props.Singular
import Verif.Props.Collapse
import Verif.Props.Almost
import Verif.Props.Detect
import Verif.Props.TriSoup
import Verif.Props.CellVolume
import Verif.Props.CutEdges
import Verif.Props.CutSurf
