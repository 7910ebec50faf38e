import Verif.Num
import Verif.Heap
import Verif.Err
import Verif.Lib
import Verif.Profile
import Verif.Geom
import Verif.Props.ErrProps
import Verif.Props.ProfileHeap
import Verif.Props.ProfileGeom
import Verif.Props.ProfileEll
import Verif.Props.ProfileParab
import Verif.Props.ParallelNan
import Verif.Props.LaunchNan
import Verif.Props.Hexagon
import Verif.Props.Validate
import Verif.Description
import Verif.Props.DescriptionProps
import Verif.Props.Weights
import Verif.ReadLine
import Verif.Props.ReadLineProps
import Verif.Segment
import Verif.Props.CapSelect
import Verif.Props.PcIntersect
import Verif.Props.SegmentProps
import Verif.Capil
import Verif.Props.TraceProps
import Verif.Photon
import Verif.Source
import Verif.Props.Fresnel
import Verif.Props.WeightProps
import Verif.Props.ScatfProps
import Verif.Props.PathProps
import Verif.Props.LaunchProps
import Verif.Props.LaunchExamples
import Verif.Props.Zigzag
import Verif.Props.LaunchFindings
import Verif.Props.ClearPath
import Verif.SourceFile
import Verif.Props.SourcePhoton
import Verif.Props.SourceNew
import Verif.Props.SourceFileProps
import Verif.Sim
import Verif.Props.SimProps
import Verif.Props.SimShared
import Verif.Props.SimFinal
import Verif.Props.SimLive
import Verif.Props.LeakShape
import Verif.Props.LaunchSafe
import Verif.Props.SimReal
import Verif.Props.SimExample
import Verif.H5Tables
import Verif.Props.H5TableProps
import Verif.Hdf5
import Verif.Props.Hdf5Props
import Verif.Props.Hdf5File
import Verif.Props.Hdf5Sim
import Verif.Getters
import Verif.Props.GetterProps
import Verif.Memory
import Verif.Props.MemoryProps
import Verif.Props.ResultMemory
import Verif.ProfileFile
import Verif.Props.ProfileFileProps
import Verif.MainProg
import Verif.Props.MainProps
import Verif.Session
import Verif.Props.SessionProps
import Verif.Props.SessionRefine
import Verif.Props.SessionHistory
import Verif.Props.PcSelect
import Verif.Props.Neighbour
import Verif.Props.LaunchBeyond
import Verif.PyApi
import Verif.Props.PyProps
import Verif.Props.PySession
import Verif.Props.PyLaunch
import Verif.PyResults
import Verif.Props.PyResultProps
import Verif.Props.PyLeaks
import Verif.Rng
import Verif.Props.RngProps
import Verif.Props.SourcePolar
import Verif.Props.LeakRecords
import Verif.Props.LeakUb
import Verif.Props.SimLeakUb
import Verif.Props.PyRange
import Verif.PhotonObj
import Verif.Props.PhotonObjProps
import Verif.Props.SimProgress
import Verif.Props.SimOverflow
import Verif.LaunchErr
import Verif.Props.LaunchErrProps
import Verif.Props.LaunchReports
import Verif.Props.LaunchSilent
import Verif.Props.ClearThrough
import Verif.Props.NoTunnel
import Verif.Props.LeakOff
import Verif.Props.EnergyIndep
import Verif.Props.Discard
import Verif.Props.Terminates
import Verif.LaunchMem
import Verif.Props.LaunchMemBase
import Verif.Props.LaunchMemOps
import Verif.Props.LaunchMemSim
import Verif.Props.LaunchMemProps
import Verif.Props.LaunchMemUse
import Verif.Props.LaunchMemExamples
import Verif.Props.LaunchOom
import Verif.Props.LeakPlaces
import Verif.SimMem
import Verif.Props.SimMemBase
import Verif.Props.SimMemOps
import Verif.Props.SimMemSim
import Verif.Props.SimMemProps
import Verif.Props.SimMemUse
import Verif.Props.Account
import Verif.Props.FrontNan
import Verif.Props.Polar
import Verif.Props.Route
import Verif.Props.Straight
import Verif.Props.PolarImage
import Verif.Props.Mirror
import Verif.Props.SimLeakOff
import Verif.Props.SimLeakVisible
import Verif.Props.Overlap
import Verif.Props.SourceFileCut
import Verif.SourceFileMem
import Verif.Props.SourceFileMemBase
import Verif.Props.SourceFileMemProps
import Verif.Props.SourceFileMemUse
import Verif.Props.UniformEllipse
import Verif.Props.Draws
import Verif.Props.SourceUniform
import Verif.Props.SourceLaw
import Verif.Props.Rougher
import Verif.Props.Lln
import Verif.Props.Renew
import Verif.Props.FuelMono
import Verif.Props.Piece
import Verif.Props.SimMean
import Verif.Props.SimOpen
import Verif.Props.HexOpen
import Verif.Props.TotalRefl
import Verif.Props.Deflect
import Verif.Props.Symmetry
import Verif.Props.Skew
import Verif.Props.Taper
import Verif.Props.Rotation
import Verif.Props.PyLaunchErr
import Verif.SourceFileProf
import Verif.Props.SourceFileProfProps
import Verif.Props.Image
import Verif.Props.SimEnergies
import Verif.Props.Index
import Verif.Props.Smoother
import Verif.Props.MorePhotons
import Verif.Props.Pooling
import Verif.Props.Replay
import Verif.Props.SameLight
