import Verif.Props.Sort
import Verif.Props.Version
import Verif.Props.Rand
import Verif.Props.Sobol
import Verif.Props.Config
import Verif.Props.Flags
import Verif.Props.Layout
import Verif.Props.Catalog
import Verif.Props.CatalogWrite
import Verif.Props.Env
import Verif.Props.Filter
import Verif.Props.Par
import Verif.Props.Ring
import Verif.Props.Rotation
import Verif.Props.Halo
import Verif.Props.HaloCut
import Verif.Props.HaloPass
import Verif.Props.Box
import Verif.Props.HaloPar
import Verif.Props.Finder
import Verif.Props.Memo
import Verif.Props.MemoConfig
import Verif.Props.IdMode
import Verif.Props.Io
import Verif.Props.IoBox
import Verif.Props.Pixel
import Verif.Props.Plucker
import Verif.Props.Mat
import Verif.Props.MatProd
import Verif.Props.InterpGrid
import Verif.Props.SplineInt
import Verif.Props.Cubic
import Verif.Model.Smooth
import Verif.Lemmas.SavGol
import Verif.Props.Convolve
import Verif.Props.SavGol
import Verif.Props.SmoothProf
import Verif.Model.Group
import Verif.Model.Prof
import Verif.Props.Group
import Verif.Props.ProfBin
import Verif.Props.ProfMedian
import Verif.Props.ProfRun
import Verif.Props.Deriv
import Verif.Props.Radius
import Verif.Props.VarColumns
import Verif.Props.CatalogWords
import Verif.Props.Coord
import Verif.Props.Tree
import Verif.Props.ModesMore
import Verif.Props.Global
import Verif.Model.Shell
import Verif.Props.Shell
import Verif.Props.ShellBins
import Verif.Props.ShellAxes
import Verif.Model.Penna
import Verif.Props.Penna
import Verif.Props.PennaMore
import Verif.Props.PennaGrid
import Verif.Model.Kde
import Verif.Props.Kde
import Verif.Props.KdeTree
import Verif.Props.KdeFilter
import Verif.Props.KdeWitness
import Verif.Props.KdePoints
import Verif.Props.RingBuf
import Verif.Props.Stats
import Verif.Props.Mem
import Verif.Props.Potential
import Verif.Props.RingWitness
import Verif.Model.ShellRun
import Verif.Lemmas.ShellRun
import Verif.Props.ShellRun
import Verif.Props.ShellRunMore
import Verif.Lemmas.HaloBack
import Verif.Props.HaloLines
import Verif.Model.Profiles
import Verif.Props.Profiles
import Verif.Props.ProfPixels
import Verif.Props.ProfCounted
import Verif.Props.Defaults
import Verif.Model.Check
import Verif.Props.Check
import Verif.Model.Main
import Verif.Props.Main
import Verif.Model.Slice
import Verif.Props.Lines
import Verif.Props.Slice
import Verif.Model.Platonic
import Verif.Props.Platonic
import Verif.Props.ShellVolume
import Verif.Model.ShellFile
import Verif.Props.ShellFile
import Verif.Model.Artio
import Verif.Props.Artio
import Verif.Model.Bolshoi
import Verif.Spec.BolshoiP
import Verif.Lemmas.BolshoiP
import Verif.Props.Bolshoi
import Verif.Model.Readers
import Verif.Props.Readers
import Verif.Props.Normals
import Verif.Props.MemoRuns
import Verif.Props.Round
import Verif.Model.Round32
import Verif.Props.Round32
import Verif.Props.Round32Bolshoi
import Verif.Model.Pipe
import Verif.Lemmas.Pipe
import Verif.Props.Pipe
import Verif.Props.PipeMore
import Verif.Props.PipeCoord
import Verif.Props.PipeHeader
import Verif.Props.PipeProf
import Verif.Model.ShellFull
import Verif.Props.ShellFull
import Verif.Model.Threads
import Verif.Props.Threads
import Verif.Props.Repro
import Verif.Model.FloatText
import Verif.Lemmas.FloatText
import Verif.Props.FloatText
import Verif.Model.Share
import Verif.Props.Share
import Verif.Lemmas.SortAny
import Verif.Props.SortNaN
import Verif.Model.FinderRound
import Verif.Lemmas.FinderRound
import Verif.Lemmas.FinderReach
import Verif.Props.FinderRound
import Verif.Props.SobolNet
import Verif.Model.EllipseGrid
import Verif.Props.EllipseGrid
import Verif.Props.ShellSphere
import Verif.Props.ShellLimit
import Verif.Model.LosRound
import Verif.Props.LosRound
import Verif.Model.PixelRound
import Verif.Props.PixelRound
import Verif.Model.Sprintf
import Verif.Props.Names
import Verif.Props.CatalogFile
import Verif.Props.PolarRound
import Verif.Props.BootRound
import Verif.Props.EvalAll
import Verif.Props.LosOuterEnds
import Verif.Props.RandRound
import Verif.Props.RingRound
import Verif.Props.FixCoord32
import Verif.Props.SelectRound
import Verif.Model.InterpRound
import Verif.Props.InterpRound
import Verif.Lemmas.XorPeriod
import Verif.Model.NormalsRound
import Verif.Props.XorPeriod
import Verif.Model.BinRound
import Verif.Props.BinRound
import Verif.Model.DensityRound
import Verif.Props.DensityRound
import Verif.Model.Bounds
import Verif.Props.Bounds
import Verif.Model.PennaRound
import Verif.Props.PennaRound
import Verif.Model.SampleRound
import Verif.Props.SampleRound
import Verif.Model.MassRound
import Verif.Model.BoundRound
import Verif.Model.PotRound
import Verif.Model.PhaseRound
import Verif.Model.SmoothRound
import Verif.Model.SmoothPlace
import Verif.Props.MassRound
import Verif.Props.BoundRound
import Verif.Props.PotRound
import Verif.Props.PhaseRound
import Verif.Props.SmoothRound
import Verif.Props.SmoothPlace
import Verif.Model.TriRound
import Verif.Props.TriRound
import Verif.Model.FracRound
import Verif.Props.FracRound
import Verif.Model.RadiusRound
import Verif.Props.RadiusRound
import Verif.Model.RspRound
import Verif.Props.RspRound
import Verif.Model.KernelRound
import Verif.Props.KernelRound
import Verif.Model.GadgetRound
import Verif.Props.GadgetRound
import Verif.Model.UnitsRound
import Verif.Props.UnitsRound
