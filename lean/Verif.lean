import Verif.Sparse.TripletProps
import Verif.Sparse.CscProps
import Verif.Blitz.ReshapeProps
import Verif.Blitz.UniqueProps
import Verif.Blitz.UniquetolProps
import Verif.Blitz.OrderProps
import Verif.Csv.Props
import Verif.Csv.RowProps
import Verif.Output.Props
import Verif.Mesh.ReadProps
import Verif.Nodes1D.Props
import Verif.Gmres.FlowProps
import Verif.Gmres.Real
import Verif.Gmres.Verbose
import Verif.Gmres.VerboseProps
import Verif.LU.Props
import Verif.Dense.Props
import Verif.DG2D.ModesProps
import Verif.DG2D.TraceProps
import Verif.DG2D.GeomProps
import Verif.DG2D.GatherProps
import Verif.DG2D.SplitProps
import Verif.Jacobi.Props
import Verif.Jacobi.QuadProps
import Verif.Jacobi.RealParams
import Verif.Jacobi.Special
import Verif.Jacobi.SpecialProps
import Verif.Special.Val
import Verif.Mesh.Rounded
import Verif.Mesh.RoundedProps
import Verif.Special.Breakdown
import Verif.Special.BreakdownProps
import Verif.SW.Special
import Verif.SW.SpecialProps
import Verif.Nodes1D.OpsProps
import Verif.DG2D.ElementProps
import Verif.DG2D.Unisolvent
import Verif.DG2D.LowOrder
import Verif.Time.LSERK4Props
import Verif.Drivers.BurgersProps
import Verif.Drivers.BurgersRun
import Verif.Drivers.BurgersRunProps
import Verif.Drivers.PoissonRun
import Verif.Drivers.PoissonRunProps
import Verif.Drivers.PoissonShow
import Verif.Drivers.PoissonShowProps
import Verif.Drivers.Poisson1D
import Verif.Drivers.Poisson1DProps
import Verif.SW.FluxProps
import Verif.SW.SetupProps
import Verif.SW.StepProps
import Verif.Cub.Props
import Verif.Ctx.CubatureProps
import Verif.Ctx.GaussProps
import Verif.Py.ExportProps
import Verif.Py.ImportProps
import Verif.Py.BuildMeshProps
import Verif.Py.LifeProps
import Verif.Py.SessionProps
import Verif.Poisson.Model
import Verif.Poisson.Field
import Verif.Poisson.Assemble
import Verif.Poisson.Forms
import Verif.Poisson.FaceForms
import Verif.Poisson.Weak
import Verif.Poisson.Trace
import Verif.Poisson.Coercive
import Verif.Poisson.Props
import Verif.Poisson.Consist
import Verif.Poisson.Sem
import Verif.Poisson.SemProps
import Verif.Poisson.Cub
import Verif.Poisson.CubProps
import Verif.Poisson.CubFaces
import Verif.Poisson.Getters
import Verif.Drivers.Poisson2D
import Verif.Drivers.Poisson2DProps
import Verif.Poisson.QuadProps
import Verif.Ins2D.Namelist
import Verif.Ins2D.NamelistProps
import Verif.Ins2D.Model
import Verif.Ins2D.Props
import Verif.Ins2D.Run
import Verif.Ins2D.RunProps
import Verif.Ins2D.LoopProps
import Verif.Heat.Model
import Verif.Heat.Props
import Verif.Heat.PyPoisson
import Verif.Heat.PyPoissonProps
import Verif.Curved.Vand
import Verif.Curved.VandProps
import Verif.Curved.Snap
import Verif.Curved.SnapProps
import Verif.Curved.Blend
import Verif.Curved.BlendProps
import Verif.SW.PyRhs
import Verif.SW.PyRhsProps
import Verif.SW.PyWeak
import Verif.SW.PyWeakProps
import Verif.SW.PyWeakMore
import Verif.SW.PyMaps
import Verif.SW.PyMapsProps
import Verif.SW.PyMapsDemo
import Verif.SW.PyTagsProps
import Verif.SW.PyLoop
import Verif.SW.PyLoopProps
import Verif.SW.PyRunProps
import Verif.SW.FilterDecay
import Verif.SW.PyDragProps
import Verif.Time.Midpoint
import Verif.Time.Lipschitz
import Verif.SW.PyOrderProps
import Verif.Time.Dissipative
import Verif.Drivers.PolySpace
import Verif.Drivers.AdvecInterp
import Verif.Drivers.AdvecRun
import Verif.Drivers.AdvecRunProps
import Verif.Drivers.PyAdvec
import Verif.Drivers.PyAdvecProps
import Verif.Quads.Disc
import Verif.Quads.GridProps
import Verif.Quads.Conserve
import Verif.Quads.RhsProps
import Verif.Quads.FilterProps
import Verif.Quads.RunProps
import Verif.Quads.Rounded
import Verif.Quads.RoundedProps
import Verif.Quads.Demo
import Verif.Quads.History
import Verif.Quads.HistoryProps
import Verif.SW.Recon
import Verif.SW.ReconProps
import Verif.Mesh.Edges
import Verif.Mesh.EdgesProps
import Verif.Mesh.CutProps
import Verif.Mesh.History
import Verif.Mesh.HistoryProps
import Verif.Time.FloatClock
import Verif.Time.FloatClockProps
import Verif.Output.Path
import Verif.Output.PathProps
import Verif.Output.Files
import Verif.Output.FilesProps
import Verif.Output.Vtk
import Verif.Output.VtkProps
import Verif.SW.GridLow
import Verif.SW.PyInit
import Verif.SW.PyInitProps
import Verif.SW.PyOutProps
import Verif.Curved.Headland
import Verif.Curved.HeadlandProps
import Verif.Heat.Bound
import Verif.Heat.BoundProps
import Verif.Time.FloatExact
import Verif.SW.Rounded
import Verif.SW.RoundedProps
import Verif.SW.SimpleRun
import Verif.SW.SimpleRunProps
import Verif.SW.FullRunProps
import Verif.Nodes1D.Rounded
import Verif.Nodes1D.RoundedProps
import Verif.Nodes1D.Life
import Verif.Nodes1D.LifeProps
import Verif.Output.Print
import Verif.Output.PrintProps
import Verif.Conform.Helpers
import Verif.Conform.Files
import Verif.Conform.Grids
import Verif.Sparse.Arrays
import Verif.Sparse.ArraysProps
import Verif.SW.CurvedStart
import Verif.SW.CurvedStartProps
import Verif.SW.CurvedStartDemo
import Verif.Time.TwoStep
import Verif.Time.Doubles
import Verif.Time.DoublesProps
import Verif.Time.FloatStep
import Verif.Time.FloatStepProps
import Verif.Time.Limits
import Verif.Drivers.Inverse
import Verif.Drivers.AdvecStableProps
