import Verif.Model.Outcome
import Verif.Model.Grid
import Verif.Lemmas.Grid
import Verif.Lemmas.GridInit
import Verif.Props.Grid
import Verif.Props.Config
import Verif.Props.Common
import Verif.Props.Stencil
import Verif.Props.CheckParameter
import Verif.Props.Acquisition
import Verif.Props.ShotSelection
import Verif.Props.Median
import Verif.Props.Seismogram
import Verif.Props.SU
import Verif.Props.Signal
import Verif.Props.Snapshot
import Verif.Props.AcqFile
import Verif.Props.Boundary
import Verif.Props.Solver
import Verif.Props.Energy
import Verif.Props.Interpolation
import Verif.Props.Averaging
import Verif.Props.GridQueries
import Verif.Props.ModelParam
import Verif.Props.ModelValues
import Verif.Props.ModelParamEM
import Verif.Props.Subset
import Verif.Props.Petro
import Verif.Model.RegularDeriv
import Verif.Lemmas.Stability
import Verif.Props.Stability
import Verif.Lemmas.Visco
import Verif.Lemmas.Growth
import Verif.Props.Visco
import Verif.Props.ViscoStability
import Verif.Props.Growth
import Verif.Lemmas.Sim
import Verif.Lemmas.SimEM
import Verif.Lemmas.SimFluid
import Verif.Props.Compare
import Verif.Props.RandomShots
import Verif.Props.RecordNames
import Verif.Props.FrequencyFile
import Verif.Props.SourcePosition
import Verif.Props.GridDistribution
import Verif.Props.ShotFrequencies
import Verif.Props.PartitionGraph
import Verif.Props.ModelRead
import Verif.Props.SeismicFiles
import Verif.Props.ShotDomains
import Verif.Props.SeismogramArith
import Verif.Props.FilterPoles
import Verif.Props.ShotFiles
import Verif.Props.Reorder
import Verif.Props.Factory
import Verif.Props.SeismogramFile
import Verif.Props.BoundaryMemory
import Verif.Props.TwoLayer
import Verif.Props.Profile
import Verif.Props.NodeWeights
import Verif.Props.Reflectivity
import Verif.Props.ShotWeights
import Verif.Props.MinVelocity
import Verif.Props.HilbertFIR
import Verif.Props.WavefieldArith
import Verif.Props.EnergySurface
import Verif.Props.StabilitySurface
import Verif.Props.StabilitySurface3D
import Verif.Props.UnstableSurface
import Verif.Props.ReciprocitySurface
import Verif.Props.Thinning
import Verif.Props.SourceSignals
import Verif.Props.Response
import Verif.Props.LeapfrogVisco
import Verif.Props.ReciprocityVisco
import Verif.Props.Encoding
import Verif.Props.PerShotSize
import Verif.Props.Decomposition
import Verif.Props.SnapshotMatrices
import Verif.Props.WavefieldFiles
import Verif.Props.Compensation
import Verif.Props.SnapshotViews
import Verif.Props.Divergence
import Verif.Props.DivergenceLocal
import Verif.Props.Hilbert
import Verif.Props.IdealFilter
import Verif.Props.Leapfrog
import Verif.Props.AxisExchange
import Verif.Props.AxisExchangeVisco
import Verif.Props.MatrixSetup
import Verif.Props.Locality
import Verif.Props.FreeSurface
import Verif.Props.ModelArith
import Verif.Props.Reciprocity
