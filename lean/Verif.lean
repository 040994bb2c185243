import Verif.Np
import Verif.Mesh.Types
import Verif.Mesh.Numbering
import Verif.Mesh.Facial
import Verif.Mesh.FacialLemmas
import Verif.Mesh.FacialProps
import Verif.Mesh.Lazy
import Verif.Mesh.Csr
import Verif.Mesh.Nodal
import Verif.Mesh.Coverage
import Verif.Mesh.Merge
import Verif.Mesh.MergeProps
import Verif.Mesh.Split
import Verif.Mesh.Glue
import Verif.Mesh.Affine
import Verif.Refine.Model
import Verif.Refine.Elements
import Verif.Refine.Vertices
import Verif.Connection.Direct
import Verif.Connection.DirectProps
import Verif.Connection.Chained
import Verif.Connection.Flatten
import Verif.Distributed.Parts
import Verif.Distributed.Comm
import Verif.Mesh.Unused
import Verif.Mesh.Grid
import Verif.Mesh.Flip
import Verif.Dof.Norm
import Verif.Dof.Context
import Verif.Dof.Pickle
import Verif.Discr.Derivative
import Verif.Discr.Factory
import Verif.Gen.Torus
import Verif.Vis.Write
import Verif.Vis.Connectivity
import Verif.Interop.FiredrakeMesh
import Verif.Interop.FiredrakeConn
import Verif.Connection.NodeBatches
import Verif.Connection.Face
import Verif.Connection.FaceEmbed
import Verif.Connection.Opposite
import Verif.Connection.PartConn
import Verif.Connection.Projection
import Verif.Mesh.Points
import Verif.Mesh.Gmsh
import Verif.Gen.Box
import Verif.Gen.BoxFaces
import Verif.Gen.BoxCover
import Verif.Gen.BoxProps
import Verif.Mesh.Orient
import Verif.Mesh.Consistency
import Verif.Mesh.Equal
import Verif.Mesh.Rotate
import Verif.Mesh.BBox
import Verif.Connection.FlattenGroups
import Verif.Mesh.GlueDefined
import Verif.Gen.PeriodicFaces
import Verif.Gen.Periodic
import Verif.Gen.PeriodicProps
import Verif.Connection.Modal
import Verif.Connection.SameMesh
import Verif.Connection.RefineConn
import Verif.Connection.RefineGeo
import Verif.Mesh.AsPython
import Verif.Mesh.RandRot
import Verif.Mesh.IsAffine
import Verif.Dof.InPlace
import Verif.Distributed.Connected
import Verif.Dof.Container
import Verif.Gen.FromVertices
import Verif.Gen.Sphere
import Verif.Gen.Revolution
import Verif.Gen.Rect
import Verif.Gen.Warp
import Verif.Vis.Fields
import Verif.Vis.Hdf
import Verif.Vis.Xdmf
import Verif.Vis.Parallel
import Verif.Interop.FiredrakeNodal
import Verif.Interop.FiredrakeImport
import Verif.Interop.FiredrakeExport
import Verif.Interop.FiredrakeExportNodes
import Verif.Interop.FiredrakeReference
import Verif.Gen.Curves
import Verif.Gen.TorusSurface
import Verif.Gen.WarpRefine
import Verif.Gen.Urchin
import Verif.Refine.Geometry
import Verif.Refine.Uniform
import Verif.Gen.FromSimplices
import Verif.Mesh.Json
import Verif.Mesh.GmshDriver
import Verif.Vis.Lifecycle
import Verif.Mesh.Export
import Verif.Connection.CrossFace
import Verif.Discr.Arrays
import Verif.Discr.Quadrature
import Verif.Connection.Inspect
import Verif.Interop.NodalDG
import Verif.Mesh.AdjCheck
import Verif.Interop.FiredrakeFields
import Verif.Connection.PartExchange
import Verif.Connection.Traces
import Verif.Distributed.Exchange
import Verif.Interop.FiredrakeTags
import Verif.Connection.ComputedParts
import Verif.Partition.MergeBack
import Verif.Mesh.Draw
import Verif.Dof.Transform
import Verif.Mesh.Commute
import Verif.Mesh.RowOrder
import Verif.Refine.Commute
import Verif.Mesh.Renumber
import Verif.Refine.Volume
import Verif.Connection.ClosedBoundary
import Verif.Connection.Conservation
import Verif.Connection.FluxCancel
import Verif.Connection.PartFlux
import Verif.Partition.TwoSteps
import Verif.Connection.PartBoundary
import Verif.Refine.PartRefine
import Verif.Connection.WholeFlux
import Verif.Connection.ProjectRefine
import Verif.Connection.RefineIntegral
import Verif.Connection.PartSums
import Verif.Connection.MoveDiscr
import Verif.Discr.Nodes
import Verif.Connection.MergeSplit
import Verif.Partition.Rows
import Verif.Gen.BoxVolume
import Verif.Mesh.OrientFollow
import Verif.Connection.Enclosed
import Verif.Connection.Apart
import Verif.Connection.ApartParts
import Verif.Refine.Apart
import Verif.Refine.ApartTensor
import Verif.Partition.Model
import Verif.Partition.Lemmas
import Verif.Partition.Props
