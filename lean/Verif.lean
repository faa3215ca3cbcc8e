import Verif.Props.Grid
import Verif.Props.Overlay
import Verif.Props.Tiling
import Verif.Props.Collector
import Verif.Props.Sweeps
import Verif.Props.Mpi
import Verif.Props.Weighting
import Verif.Props.Fields
import Verif.Props.Current
import Verif.Props.ZigZag
import Verif.Props.Interp
import Verif.Props.Vec3
import Verif.Props.Rel
import Verif.Props.Pusher
import Verif.Props.Particle
import Verif.Props.External
import Verif.Props.Rand
import Verif.Props.Placement
import Verif.Props.Beam
import Verif.Props.Pairing
import Verif.Props.CollideTA
import Verif.Props.CollideRel
import Verif.Props.Output
import Verif.Props.Probe
import Verif.Props.Signal
import Verif.Props.Limits
import Verif.Props.Smooth
import Verif.Props.Text
import Verif.Props.Dirs
import Verif.Props.Maxwell
import Verif.Props.Azimuthal
import Verif.Props.Maps
import Verif.Props.FieldStep
import Verif.Props.SeenDivided
import Verif.Props.Energy
import Verif.Props.Velocity
import Verif.Props.Sampling
import Verif.Props.ZigZagCont
import Verif.Props.Scatter
import Verif.Props.HandMpi
import Verif.Props.Dump
import Verif.Props.Species
import Verif.Props.GeoCfg
import Verif.Props.FieldMpi
import Verif.Props.ProbeMpi
import Verif.Props.DumpMpi
import Verif.Props.DumpMaps
import Verif.Props.Gather
import Verif.Props.CurrentStep
import Verif.Props.Pic
import Verif.Props.PicSame
import Verif.Props.CurrentMpi
import Verif.Props.PicLaws
import Verif.Props.PicMpi
import Verif.Props.CollidePass
import Verif.Props.PicFull
import Verif.Props.PicBeam
import Verif.Props.PicStart
import Verif.Props.PicOut
import Verif.Props.Waves
import Verif.Props.ExtDivided
import Verif.Props.Even
import Verif.Props.Neutral
import Verif.Model.Config
import Verif.Spec.Config
import Verif.Lemmas.Config
import Verif.Props.Config
import Verif.Model.MetaReader
import Verif.Spec.MetaReader
import Verif.Props.MetaReader
import Verif.Model.PicConf
import Verif.Spec.PicConf
import Verif.Props.PicConf
import Verif.Spec.PicEnergy
import Verif.Props.PicEnergy
import Verif.Model.DataReader
import Verif.Spec.DataReader
import Verif.Props.DataReader
import Verif.Model.Shuffle
import Verif.Props.Shuffle
import Verif.Model.Threads
import Verif.Lemmas.Threads
import Verif.Lemmas.ThreadsHand
import Verif.Props.Threads
import Verif.Props.PicForce
import Verif.Props.Density
import Verif.Props.RowRaces
import Verif.Props.WeakFields
import Verif.Model.CollideReport
import Verif.Props.CollideReport
import Verif.Props.LayersStart
import Verif.Spec.PicCause
import Verif.Props.PicCause
import Verif.Props.CollideNames
import Verif.Spec.PicScale
import Verif.Lemmas.Scale
import Verif.Props.PicScale
import Verif.Spec.PicCloud
import Verif.Props.PicCloud
import Verif.Spec.PicRest
import Verif.Props.PicRest
import Verif.Spec.PicAgain
import Verif.Props.PicAgain
import Verif.Props.PicAdaptive
import Verif.Spec.Progress
import Verif.Props.Progress
import Verif.Spec.PicUnits
import Verif.Lemmas.Units
import Verif.Props.PicUnits
import Verif.Model.PicAll
import Verif.Spec.PicAll
import Verif.Lemmas.PicAll
import Verif.Props.PicAll
import Verif.Model.Configure
import Verif.Spec.Configure
import Verif.Props.Configure
import Verif.Model.Cache
import Verif.Spec.Cache
import Verif.Props.Cache
import Verif.Model.PhysInfo
import Verif.Spec.PhysInfo
import Verif.Props.PhysInfo
import Verif.Props.PicTotal
import Verif.Model.Figure
import Verif.Spec.Figure
import Verif.Props.Figure
import Verif.Spec.TimeStep
import Verif.Props.TimeStep
import Verif.Props.LimitsMsg
import Verif.Model.TestRun
import Verif.Spec.TestRun
import Verif.Props.TestRun
import Verif.Model.Perf
import Verif.Spec.Perf
import Verif.Props.Perf
import Verif.Model.Subtree
import Verif.Spec.Subtree
import Verif.Props.Subtree
import Verif.Props.TimeStepDiv
import Verif.Model.Nbrun
import Verif.Spec.Nbrun
import Verif.Props.Nbrun
import Verif.Spec.PicPlane
import Verif.Props.PicPlane
import Verif.Spec.PicMirror
import Verif.Props.PicMirror
