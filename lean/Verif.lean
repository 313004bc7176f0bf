import Verif.Lemmas.Binary64
import Verif.Lemmas.Rounding
import Verif.Lemmas.Sqrt64
import Verif.Model.BallFl
import Verif.Model.Display
import Verif.Model.DtEdges
import Verif.Model.ForcesFl
import Verif.Model.GenerateDt
import Verif.Model.InterpFl
import Verif.Model.LaplaceFl
import Verif.Model.SdfFl
import Verif.Model.Seed
import Verif.Model.ShapesFl
import Verif.Model.Sizing
import Verif.Model.SizingFl
import Verif.Model.SliverDt
import Verif.Model.VolFl
import Verif.Props.Adjacency
import Verif.Props.BallFl
import Verif.Props.Blocker
import Verif.Props.Bytes
import Verif.Props.Cleanup
import Verif.Props.CleanupSmooth
import Verif.Props.Dihedral
import Verif.Props.DihedralFl
import Verif.Props.Display
import Verif.Props.Distribute
import Verif.Props.Domain
import Verif.Props.DomainObjects
import Verif.Props.DtEdges
import Verif.Props.DtWrapper
import Verif.Props.Exchange
import Verif.Props.FixMesh
import Verif.Props.FixMeshFl
import Verif.Props.FixTwice
import Verif.Props.FixedFl
import Verif.Props.Forces
import Verif.Props.ForcesFl
import Verif.Props.Generate
import Verif.Props.GenerateDt
import Verif.Props.Ghost
import Verif.Props.Gradient
import Verif.Props.HJ32
import Verif.Props.InitPoints
import Verif.Props.Initial
import Verif.Props.InsideFl
import Verif.Props.Interp
import Verif.Props.InterpFl
import Verif.Props.InterpNan
import Verif.Props.InterpOutside
import Verif.Props.Laplace
import Verif.Props.LaplaceFl
import Verif.Props.LaplaceStop
import Verif.Props.Limgrad
import Verif.Props.LimgradFl
import Verif.Props.LimgradForm
import Verif.Props.LimgradNan
import Verif.Props.LintOnce
import Verif.Props.Linter
import Verif.Props.LinterUnused
import Verif.Props.Lipschitz
import Verif.Props.Manifold
import Verif.Props.MeshLoop
import Verif.Props.NanFinish
import Verif.Props.NanFl
import Verif.Props.NanInit
import Verif.Props.Native
import Verif.Props.NativeHJ
import Verif.Props.Options
import Verif.Props.OutsideFl
import Verif.Props.Outward
import Verif.Props.PadShift
import Verif.Props.Parallel
import Verif.Props.ParallelSafe
import Verif.Props.Pass
import Verif.Props.PointOrder
import Verif.Props.Project
import Verif.Props.ProjectFl
import Verif.Props.QualFl
import Verif.Props.Quality
import Verif.Props.ReadBin
import Verif.Props.Renumber
import Verif.Props.Returned
import Verif.Props.Sdf
import Verif.Props.SdfFl
import Verif.Props.Seed
import Verif.Props.SetAlgebra
import Verif.Props.ShapesFl
import Verif.Props.Simplex
import Verif.Props.Sizing
import Verif.Props.SizingCourant
import Verif.Props.SizingDefaults
import Verif.Props.SizingExtrude
import Verif.Props.SizingFl
import Verif.Props.SizingGrade
import Verif.Props.SizingLayers
import Verif.Props.SizingLip
import Verif.Props.SizingMirror
import Verif.Props.SizingMono
import Verif.Props.SizingNan
import Verif.Props.SizingSpeed
import Verif.Props.SizingUnits
import Verif.Props.Sliver
import Verif.Props.SliverCall
import Verif.Props.SliverDt
import Verif.Props.SliverUnits
import Verif.Props.Topology
import Verif.Props.Translate
import Verif.Props.Units
import Verif.Props.Velocity
import Verif.Props.VolFl
import Verif.Props.WhereTo
import Verif.Props.Winding
import Verif.Props.Window
import Verif.Props.Workflow
import Verif.Axioms
