import Verif.Model.Time
import Verif.Model.Cache
import Verif.Model.BufferCore
import Verif.Spec.Cache
import Verif.Spec.Buffer
import Verif.Spec.Toy
import Verif.Spec.History
import Verif.Props.Cache
import Verif.Props.Lookup
import Verif.Props.Buffer
import Verif.Spec.Latest
import Verif.Spec.Path
import Verif.Props.Listing
import Verif.Props.Latest
import Verif.Props.Chain
import Verif.Model.LinearMath
import Verif.Model.Pose
import Verif.Spec.Geometry
import Verif.Props.Geometry
import Verif.Props.Pose
import Verif.Model.Requests
import Verif.Spec.Requests
import Verif.Props.Requests
import Verif.Model.MessageFilter
import Verif.Spec.MessageFilter
import Verif.Props.MessageFilter
import Verif.Model.BufferServer
import Verif.Spec.BufferServer
import Verif.Proofs.BufferServer
import Verif.Proofs.ServerDue
import Verif.Proofs.ServerCheck
import Verif.Props.BufferServer
import Verif.Model.Ros
import Verif.Spec.Ros
import Verif.Proofs.Ros
import Verif.Props.Ros
import Verif.Model.Locks
import Verif.Spec.Locks
import Verif.Proofs.Locks
import Verif.Props.Locks
import Verif.Model.Threads
import Verif.Spec.Threads
import Verif.Proofs.Threads
import Verif.Props.Threads
import Verif.Model.GeoMsgs
import Verif.Spec.GeoMsgs
import Verif.Proofs.GeoMsgs
import Verif.Props.GeoMsgs
import Verif.Spec.Transform
import Verif.Props.Transform
import Verif.Model.PointCloud
import Verif.Spec.PointCloud
import Verif.Proofs.PointCloud
import Verif.Props.PointCloud
import Verif.Spec.Closed
import Verif.Props.Closed
import Verif.Spec.Order
import Verif.Proofs.Rename
import Verif.Props.Order
import Verif.Model.AxisAngle
import Verif.Spec.AxisAngle
import Verif.Proofs.AxisAngle
import Verif.Props.AxisAngle
import Verif.Spec.Denote
import Verif.Proofs.Denote
import Verif.Props.Denote
import Verif.Spec.FilterWait
import Verif.Proofs.FilterWait
import Verif.Proofs.FilterWaitStep
import Verif.Props.FilterWait
import Verif.Model.FrameReport
import Verif.Spec.FrameReport
import Verif.Proofs.FrameReport
import Verif.Props.FrameReport
import Verif.Model.Convert
import Verif.Spec.Convert
import Verif.Proofs.Convert
import Verif.Props.Convert
import Verif.Spec.Late
import Verif.Props.Late
import Verif.Props.PoseDenote
import Verif.Props.Origin
import Verif.Model.PyTime
import Verif.Spec.PyTime
import Verif.Proofs.PyTime
import Verif.Model.PyBuffer
import Verif.Spec.PyBuffer
import Verif.Props.PyTime
import Verif.Spec.PyWait
import Verif.Props.PyWait
import Verif.Model.PyListener
import Verif.Spec.PyListener
import Verif.Props.PyListener
import Verif.Model.PyTransform
import Verif.Spec.PyTransform
import Verif.Proofs.PyTransform
import Verif.Props.PyTransform
import Verif.Model.StaticProgram
import Verif.Spec.StaticProgram
import Verif.Props.StaticProgram
import Verif.Model.ViewFrames
import Verif.Spec.ViewFrames
import Verif.Props.ViewFrames
import Verif.Model.Echo
import Verif.Spec.Echo
import Verif.Proofs.Echo
import Verif.Props.Echo
import Verif.Model.PyCloud
import Verif.Spec.PyCloud
import Verif.Proofs.PyCloud
import Verif.Props.PyCloud
import Verif.Model.Diagonalize
import Verif.Spec.Diagonalize
import Verif.Proofs.Diagonalize
import Verif.Props.Diagonalize
import Verif.Spec.Drift
import Verif.Proofs.Drift
import Verif.Props.Drift
import Verif.Model.Scalar
import Verif.Proofs.Scalar
import Verif.Props.Scalar
import Verif.Model.MinMax
import Verif.Props.MinMax
import Verif.Model.InPlace
import Verif.Props.InPlace
import Verif.Model.ErrorText
import Verif.Spec.ErrorText
import Verif.Proofs.ErrorText
import Verif.Props.ErrorText
import Verif.Model.PySet
import Verif.Spec.PySet
import Verif.Props.PySet
import Verif.Spec.Newest
import Verif.Proofs.Newest
import Verif.Props.Newest
import Verif.Model.Rounded
import Verif.Spec.Rounded
import Verif.Proofs.Rounded
import Verif.Proofs.RoundedWalk
import Verif.Props.Rounded
import Verif.Model.RoundedInterp
import Verif.Spec.RoundedInterp
import Verif.Proofs.Weight
import Verif.Proofs.RoundedInterp
import Verif.Props.RoundedInterp
import Verif.Props.Complement
import Verif.Spec.SameData
import Verif.Proofs.SameData
import Verif.Props.SameData
import Verif.Spec.Speed
import Verif.Proofs.Speed
import Verif.Props.Speed
import Verif.Model.Listeners
import Verif.Spec.Listeners
import Verif.Proofs.Listeners
import Verif.Props.Listeners
import Verif.Model.Floats
import Verif.Spec.Floats
import Verif.Proofs.Floats
import Verif.Proofs.FloatsChain
import Verif.Proofs.FloatsInterp
import Verif.Proofs.FloatsEdge
import Verif.Proofs.FloatsFive
import Verif.Props.Floats
import Verif.Props.FloatsFive
import Verif.Model.ListenerThread
import Verif.Spec.ListenerThread
import Verif.Proofs.ListenerThread
import Verif.Proofs.ListenerThreadEnd
import Verif.Proofs.ListenerThreadLive
import Verif.Props.ListenerThread
import Verif.Spec.Agreement
import Verif.Props.Agreement
import Verif.Model.RoundedProduct
import Verif.Spec.RoundedProduct
import Verif.Proofs.RoundedProduct
import Verif.Proofs.RoundedFive
import Verif.Props.RoundedProduct
import Verif.Props.LateSame
import Verif.Model.Accesses
import Verif.Spec.Accesses
import Verif.Proofs.Accesses
import Verif.Props.Accesses
import Verif.Model.RequestThreads
import Verif.Spec.RequestThreads
import Verif.Proofs.RequestThreads
import Verif.Proofs.RequestCounts
import Verif.Proofs.RequestHandles
import Verif.Props.RequestThreads
import Verif.Props.TimeZero
import Verif.Props.DriftZero
import Verif.Proofs.MapBuf
import Verif.Spec.FloatsExact
import Verif.Proofs.FloatsSame
import Verif.Props.FloatsExact
import Verif.Spec.Arrival
import Verif.Proofs.Arrival
import Verif.Props.Arrival
import Verif.Model.BufferProgram
import Verif.Spec.BufferProgram
import Verif.Proofs.BufferProgram
import Verif.Props.BufferProgram
import Verif.Spec.FilterPass
import Verif.Proofs.FilterPass
import Verif.Props.FilterPass
import Verif.Spec.FilterInTime
import Verif.Proofs.FilterInTime
import Verif.Props.FilterInTime
import Verif.Spec.FilterLeft
import Verif.Proofs.FilterLeft
import Verif.Props.FilterLeft
import Verif.Model.Cells
import Verif.Spec.Cells
import Verif.Props.Cells
import Verif.Spec.SweepOrder
import Verif.Proofs.SweepOrder
import Verif.Props.SweepOrder
import Verif.Props.SweepOrderFilter
