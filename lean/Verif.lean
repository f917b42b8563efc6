import Verif.Iterator.Model
import Verif.Iterator.Lemmas
import Verif.Iterator.Props
import Verif.Multigrid.Model
import Verif.Multigrid.Spec
import Verif.Multigrid.Lemmas
import Verif.Multigrid.Props
import Verif.Numbering.Model
import Verif.Numbering.Lemmas
import Verif.Numbering.Props
import Verif.Incidence.Model
import Verif.Incidence.Spec
import Verif.Incidence.Lemmas
import Verif.Incidence.Instances
import Verif.Incidence.Props
import Verif.Newton.Model
import Verif.Newton.Props
import Verif.Tools.Frozen
import Verif.Tools.FrozenProps
import Verif.Tools.Graph
import Verif.Tools.GraphProps
import Verif.Tools.Delete
import Verif.Registry.Model
import Verif.Registry.Props
import Verif.Base.Dict
import Verif.Cochain.Model
import Verif.Cochain.Lemmas
import Verif.Cochain.Props
import Verif.ArrayCache.Model
import Verif.ArrayCache.Props
import Verif.TimeSeq.Model
import Verif.TimeSeq.Props
import Verif.Spaces.Model
import Verif.Spaces.Props
import Verif.Mesh.Model
import Verif.Mesh.Lemmas
import Verif.Mesh.Props
import Verif.Gathering.Props
import Verif.Chaining.Props2
import Verif.Assembly.Heap
import Verif.Customize.BCProps
import Verif.Customize.BlockSet
import Verif.Customize.Alias
import Verif.Customize.Values
import Verif.OpCache.Props
import Verif.OpCache.Matrices
import Verif.Precond.Props
import Verif.Base.Sign
import Verif.Expr.Model
import Verif.Expr.Spec
import Verif.Expr.Lemmas
import Verif.Expr.Props
import Verif.LinRepr.Model
import Verif.LinRepr.Spec
import Verif.LinRepr.Lemmas
import Verif.LinRepr.Unique
import Verif.LinRepr.Props
import Verif.WeakForm.Model
import Verif.WeakForm.Spec
import Verif.WeakForm.Lemmas
import Verif.WeakForm.Props
import Verif.WeakForm.Terms
import Verif.WeakForm.TermProps
import Verif.TimeDisc.Model
import Verif.TimeDisc.Spec
import Verif.TimeDisc.Lemmas
import Verif.TimeDisc.Props
import Verif.MatrixProxy.Model
import Verif.MatrixProxy.Spec
import Verif.MatrixProxy.Lemmas
import Verif.MatrixProxy.Props
import Verif.MatrixProxy.Shapes
import Verif.Poly.Model
import Verif.Poly.Lemmas
import Verif.Poly.Tensor
import Verif.Poly.Forms
import Verif.Poly.Props
import Verif.Poly.Commute
import Verif.Poly.Mapped
import Verif.Poly.Cache
import Verif.LocalDofs.Model
import Verif.LocalDofs.Props
import Verif.PoolGM.Model
import Verif.PoolGM.Spec
import Verif.PoolGM.Lemmas
import Verif.PoolGM.Run
import Verif.PoolGM.Props
import Verif.PoolGM.Model3
import Verif.PoolGM.Spec3
import Verif.PoolGM.Props3
import Verif.PoolGM.Structured
import Verif.PoolGM.Structured2
import Verif.PoolGM.Structured3
import Verif.Metric.Model
import Verif.Metric.Props
import Verif.Geometry.Model
import Verif.Geometry.Jac
import Verif.Geometry.Shape
import Verif.Geometry.Crazy
import Verif.Geometry.Domain
import Verif.Geometry.Channel
import Verif.Geometry.Faces
import Verif.Geometry.Signature
import Verif.Mass.Model
import Verif.Mass.Lemmas
import Verif.Mass.Props
import Verif.Mass.Unisolvent
import Verif.Mass.Main
import Verif.Mass.Definite
import Verif.Great.Model
import Verif.Great.Group
import Verif.Great.Spec
import Verif.Great.Lemmas
import Verif.Great.Neighbors
import Verif.Great.Boundary
import Verif.Great.Distribute
import Verif.Great.DistributeLemmas
import Verif.Great.DistributeProps
import Verif.Great.Reverse
import Verif.Great.ReverseProps
import Verif.Great.Pairing
import Verif.Triangle.Model
import Verif.Triangle.Lemmas
import Verif.Triangle.Props
import Verif.Triangle.Commute
import Verif.Reversal.Model
import Verif.Reversal.Spec
import Verif.Reversal.Lemmas
import Verif.Reversal.Props
import Verif.Reversal.Keys
import Verif.Reversal.KeyProps
import Verif.Nonlinear.Model
import Verif.Nonlinear.Spec
import Verif.Nonlinear.Lemmas
import Verif.Nonlinear.Lemmas2
import Verif.Nonlinear.Lemmas3
import Verif.Nonlinear.Props
import Verif.Nonlinear.Fixed
import Verif.Nonlinear.Picard
import Verif.Recon.Props
import Verif.Trilinear.Callers
import Verif.Funcs.Model
import Verif.Funcs.Model3
import Verif.Funcs.Spec
import Verif.Funcs.Calculus
import Verif.Funcs.ModelReal
import Verif.Funcs.Ops2
import Verif.Funcs.Ops3
import Verif.Funcs.Identities
import Verif.Funcs.Checks
import Verif.Funcs.Integral
import Verif.Krylov.Model
import Verif.Krylov.Spec
import Verif.Krylov.Refine
import Verif.Krylov.Math
import Verif.Krylov.Run
import Verif.Krylov.Seq
import Verif.Krylov.Body
import Verif.Krylov.LSeq
import Verif.Krylov.LBody
import Verif.Krylov.Props
import Verif.MgSolver.Model
import Verif.MgSolver.Spec
import Verif.MgSolver.Refine
import Verif.MgSolver.Props
import Verif.DynSys.Model
import Verif.DynSys.Spec
import Verif.DynSys.Lemmas
import Verif.DynSys.Eval
import Verif.DynSys.Block
import Verif.DynSys.Raw
import Verif.DynSys.Bc
import Verif.DynSys.Session
import Verif.DynSys.Props
import Verif.Params.Model
import Verif.Params.Spec
import Verif.Params.Lemmas
import Verif.Params.Props
import Verif.Funcs.Given
import Verif.Trf.Model
import Verif.Trf.Spec
import Verif.Trf.Config
import Verif.Trf.Geo
import Verif.Trf.Glue
import Verif.Trf.Forest
import Verif.Trf.Conform
import Verif.Trf.Levels
import Verif.Trf.Props
import Verif.Trf.History
import Verif.Trf.Shape
import Verif.Trf.Curved
import Verif.Trf.Uniform
import Verif.Trf.Values
import Verif.Trf.Integer
import Verif.Reduce.Model
import Verif.Reduce.Spec
import Verif.Reduce.Index
import Verif.Reduce.Dofs
import Verif.Reduce.Calc
import Verif.Reduce.Pull
import Verif.Reduce.Commute2
import Verif.Reduce.Commute3
import Verif.Reduce.Exact
import Verif.Reduce.RoundTrip
import Verif.Reduce.Corollaries
import Verif.Reduce.Examples
import Verif.Reduce.Regions
import Verif.Reduce.Tri
import Verif.Norms.Model
import Verif.Norms.Spec
import Verif.Norms.Change
import Verif.Norms.Sums
import Verif.Norms.Errors
import Verif.Norms.Norm
import Verif.Norms.Refute
import Verif.Norms.Residual
import Verif.Boundary.Model
import Verif.Boundary.Spec
import Verif.Boundary.Lemmas
import Verif.Boundary.Props
import Verif.Boundary.Green
import Verif.Boundary.Flux
import Verif.Boundary.Examples
import Verif.Sections.Model
import Verif.Sections.Spec
import Verif.Sections.Lemmas
import Verif.Sections.Faces
import Verif.Sections.Points
import Verif.Sections.Chosen
import Verif.Sections.Misses
import Verif.Sections.Dofs
import Verif.Runner.Model
import Verif.Runner.Spec
import Verif.Runner.Lemmas
import Verif.Runner.Head
import Verif.Runner.Rows
import Verif.Runner.Resume
import Verif.Runner.Example
import Verif.Runner.Crashes
import Verif.Runner.Parallel
import Verif.Runner.Read
import Verif.Adaptive.Model
import Verif.Adaptive.Spec
import Verif.Adaptive.Lemmas
import Verif.Adaptive.Fresh
import Verif.Adaptive.Systems
import Verif.Adaptive.CModel
import Verif.Adaptive.Cochains
import Verif.Adaptive.Refuted
import Verif.Samples.Model
import Verif.Samples.Spec
import Verif.Samples.Mhd
import Verif.Samples.Bc
import Verif.Samples.Model2
import Verif.Samples.Spec2
import Verif.Samples.Exact
import Verif.Samples.Initial
import Verif.Samples.Pieces
import Verif.Samples.PieceSpec
import Verif.Samples.PieceThm
import Verif.Samples.Ions
import Verif.Samples.IonThm
import Verif.Dds.Stream
import Verif.Dds.StreamSpec
import Verif.Dds.Region
import Verif.Dds.Reach
import Verif.Dds.Values
import Verif.Dds.StreamEx
import Verif.Dds.Ops
import Verif.Dds.OpsSpec
import Verif.Dds.OpsThm
import Verif.Dds.Measure
import Verif.Dds.Group
import Verif.Dds.Files
import Verif.Instant.Model
import Verif.Instant.Spec
import Verif.Instant.Lemmas
import Verif.Instant.Receive
import Verif.Instant.Lookup
import Verif.Instant.Arith
import Verif.Instant.Store
import Verif.Instant.History
import Verif.Config.Model
import Verif.Config.Numbering
import Verif.Config.Tiling
import Verif.Config.Nodes
import Verif.Config.Pbc
import Verif.Config.Elements
import Verif.Config.Mapping
import Verif.Passing.Model
import Verif.Passing.Places
import Verif.Passing.Found
import Verif.Passing.Shapes
import Verif.Passing.Pass
import Verif.Passing.Hierarchy
import Verif.Passing.Levels
import Verif.Boxes.Model
import Verif.Boxes.Tiles
import Verif.Boxes.Dofs
import Verif.Boxes.Contain
import Verif.Boxes.Union
import Verif.MgNodes.Model
import Verif.MgNodes.Pick
import Verif.MgNodes.Checks
import Verif.MgNodes.Spec
import Verif.MgNodes.Levels
import Verif.MgNodes.Parse
import Verif.Integrals.Model
import Verif.Integrals.Sums
import Verif.Integrals.Quad
import Verif.Integrals.Cfl
import Verif.Integrals.Vtk
import Verif.Monitor.Model
import Verif.Monitor.Save
import Verif.Monitor.Report
import Verif.Monitor.Timer
import Verif.Split.Model
import Verif.Split.Numbers
import Verif.Split.House
import Verif.Split.Plane
import Verif.Split.Space
import Verif.Split.Octants
import Verif.Split.Tqr
import Verif.Slice.Model
import Verif.Slice.Spec
import Verif.Slice.Lemmas
import Verif.Slice.Props
import Verif.Slice.Faces
import Verif.Ranking.Model
import Verif.Ranking.Props
import Verif.Ranking.Witness
import Verif.Lines.Model
import Verif.Lines.Meet
import Verif.Lines.On
import Verif.MeshPy.Model
import Verif.MeshPy.Props
import Verif.MeshPy.Witness
import Verif.Rename.Model
import Verif.Rename.Props
import Verif.Rename.Witness
import Verif.Memo.Model
import Verif.Memo.Props
import Verif.Memo.Keys
import Verif.Memo.Witness
import Verif.Accepts.Model
import Verif.Accepts.Props
import Verif.Accepts.Witness
import Verif.FaceDofs.Model
import Verif.FaceDofs.Props
import Verif.FaceDofs.Comp
import Verif.FaceDofs.Witness
import Verif.Degree.Model
import Verif.Degree.Props
import Verif.Degree.Witness
import Verif.Derived.Model
import Verif.Derived.Props
import Verif.Derived.Witness
import Verif.Regions.Model
import Verif.Regions.Props
import Verif.Regions.Witness
import Verif.Folder.Model
import Verif.Folder.Props
import Verif.Folder.Witness
import Verif.Wrapped.Model
import Verif.Wrapped.Props
import Verif.Wrapped.Witness
import Verif.SideFaces.Model
import Verif.SideFaces.Props
import Verif.SideFaces.Witness
import Verif.Apply.Model
import Verif.Apply.Props
import Verif.Apply.Witness
