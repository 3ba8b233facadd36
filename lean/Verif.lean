import Verif.Base
import Verif.Model.Frame
import Verif.Lemmas.Frame
import Verif.Spec.Frame
import Verif.Props.Frame
import Verif.Model.Net
import Verif.Spec.Net
import Verif.Lemmas.Net
import Verif.Lemmas.NetStep
import Verif.Lemmas.NetInv
import Verif.Lemmas.NetFault
import Verif.Lemmas.NetView
import Verif.Lemmas.NetDrain
import Verif.Lemmas.NetTx
import Verif.Demo
import Verif.Props.Device
import Verif.Spec.Receive
import Verif.Spec.Channel
import Verif.Lemmas.Index
import Verif.Lemmas.IndexInv
import Verif.Lemmas.Channel
import Verif.Spec.Timing
import Verif.Lemmas.Arrive
import Verif.Props.Receive
import Verif.Props.Channel
import Verif.Lemmas.Provenance
import Verif.Props.Timing
import Verif.Model.Orbit
import Verif.Lemmas.Orbit
import Verif.Model.OrbitSched
import Verif.Lemmas.OrbitSched
import Verif.Props.Orbit
import Verif.Props.OrbitSched
import Verif.Model.Propagation
import Verif.Lemmas.Propagation
import Verif.Props.Propagation
import Verif.Model.Placement
import Verif.Lemmas.Placement
import Verif.Props.Placement
import Verif.Props.Parse
import Verif.Props.Waypoint
import Verif.Props.Helper
import Verif.Props.NeighbourCache
import Verif.Props.Settings
import Verif.Props.Presets
import Verif.Model.Parse
import Verif.Spec.Parse
import Verif.Lemmas.Parse
import Verif.Lemmas.ParseRecord
import Verif.Lemmas.ParseShow
import Verif.Model.Waypoint
import Verif.Model.Helper
import Verif.Spec.Helper
import Verif.Lemmas.Helper
import Verif.Lemmas.HelperConf
import Verif.Lemmas.NeighbourCache
import Verif.Spec.Waypoint
import Verif.Lemmas.Waypoint
import Verif.Spec.Proper
import Verif.Lemmas.NoFault
import Verif.Props.NoFault
import Verif.Lemmas.HelperRun
import Verif.Spec.EndToEnd
import Verif.Lemmas.EndToEnd
import Verif.Props.EndToEnd
import Verif.Props.HelperRun
import Verif.Spec.Trace
import Verif.Lemmas.Trace
import Verif.Props.Trace
import Verif.Spec.Isolation
import Verif.Lemmas.Isolation
import Verif.Props.Isolation
import Verif.Model.Share
import Verif.Spec.Share
import Verif.Lemmas.Share
import Verif.Props.Share
import Verif.Model.Sky
import Verif.Lemmas.Constellation
import Verif.Props.Constellation
import Verif.Model.Reentrant
import Verif.Spec.Reentrant
import Verif.Lemmas.Reentrant
import Verif.Props.Reentrant
import Verif.Props.Reconfigure
import Verif.Model.TraceFile
import Verif.Spec.TraceFile
import Verif.Lemmas.TraceFile
import Verif.Lemmas.TraceFile2
import Verif.Props.TraceFile
import Verif.Spec.Queueing
import Verif.Lemmas.Queueing
import Verif.Props.Queueing
import Verif.Model.Query
import Verif.Spec.Link
import Verif.Lemmas.Link
import Verif.Props.Address
import Verif.Props.Link
import Verif.Spec.Separation
import Verif.Props.Separation
import Verif.Model.Flow
import Verif.Spec.Flow
import Verif.Lemmas.Flow
import Verif.Props.Flow
import Verif.Spec.Reach
import Verif.Lemmas.Reach
import Verif.Props.Reach
import Verif.Props.Visibility
import Verif.Model.Dispose
import Verif.Spec.Dispose
import Verif.Lemmas.Dispose
import Verif.Props.Dispose
import Verif.Model.Fleet
import Verif.Model.Example
import Verif.Spec.Fleet
import Verif.Spec.Example
import Verif.Lemmas.Fleet
import Verif.Lemmas.Example
import Verif.Props.Fleet
import Verif.Props.Example
import Verif.Model.Relay
import Verif.Spec.Relay
import Verif.Spec.ExampleRoute
import Verif.Lemmas.Relay
import Verif.Props.Relay
import Verif.Props.ExampleRoute
import Verif.Spec.Load
import Verif.Lemmas.Load
import Verif.Props.Load
import Verif.Model.Rounded
import Verif.Spec.Rounded
import Verif.Lemmas.Rounded
import Verif.Lemmas.RoundedLeo
import Verif.Lemmas.RoundedIsl
import Verif.Lemmas.RoundedOrbit
import Verif.Props.Rounded
import Verif.Spec.ChannelTrace
import Verif.Lemmas.ChannelTrace
import Verif.Lemmas.ChannelTrace2
import Verif.Lemmas.ChannelTrace3
import Verif.Lemmas.ChannelTrace4
import Verif.Lemmas.ChannelTrace5
import Verif.Lemmas.ChannelTrace6
import Verif.Props.ChannelTrace
import Verif.Model.Flood
import Verif.Spec.Flood
import Verif.Lemmas.Endless
import Verif.Lemmas.Flood
import Verif.Props.Flood
import Verif.Model.Queues
import Verif.Spec.Queues
import Verif.Lemmas.Queues
import Verif.Props.Queues
import Verif.Model.RoundedLink
import Verif.Spec.RoundedLink
import Verif.Props.RoundedLink
import Verif.Spec.Ledger
import Verif.Lemmas.Ledger
import Verif.Props.Ledger
import Verif.Spec.Order
import Verif.Lemmas.Order
import Verif.Props.Order
import Verif.Spec.Double
import Verif.Model.ParseDouble
import Verif.Lemmas.ParseDouble
import Verif.Lemmas.ParseDoubleRead
import Verif.Props.ParseDouble
import Verif.Spec.Throughput
import Verif.Lemmas.Throughput
import Verif.Props.Throughput
import Verif.Model.Lifetime
import Verif.Lemmas.Lifetime
import Verif.Props.Lifetime
import Verif.Spec.Coverage
import Verif.Lemmas.Coverage
import Verif.Props.Coverage
import Verif.Spec.Mesh
import Verif.Lemmas.Mesh
import Verif.Lemmas.Mesh2
import Verif.Props.Mesh
import Verif.Model.World
import Verif.Spec.World
import Verif.Lemmas.World
import Verif.Lemmas.World2
import Verif.Lemmas.World3
import Verif.Props.World
import Verif.Model.Track
import Verif.Spec.Track
import Verif.Lemmas.Track
import Verif.Lemmas.Track2
import Verif.Props.Track
import Verif.Props.Course
import Verif.Spec.Causal
import Verif.Lemmas.Causal
import Verif.Lemmas.Causal2
import Verif.Props.Causal
import Verif.Spec.Shipped
import Verif.Props.Shipped
import Verif.Model.Delay
import Verif.Spec.Delay
import Verif.Props.Delay
import Verif.Props.Symmetry
import Verif.Props.AddressPlan
import Verif.Props.Telesat
import Verif.Props.Spread
import Verif.Spec.FloodExample
import Verif.Props.FloodExample
import Verif.Spec.Converse
import Verif.Lemmas.Converse
import Verif.Props.Converse
import Verif.Model.PacketTrace
import Verif.Spec.PacketTrace
import Verif.Props.PacketTrace
import Verif.Spec.Floods
import Verif.Lemmas.Floods
import Verif.Props.Floods
import Verif.Props.FloodCost
import Verif.Model.LinkTable
import Verif.Spec.FreeSpace
import Verif.Props.FreeSpace
import Verif.Model.BulkTrace
import Verif.Props.BulkTrace
import Verif.Model.IpTrace
import Verif.Spec.IpTrace
import Verif.Props.IpTrace
import Verif.Model.SocketTrace
import Verif.Spec.SocketTrace
import Verif.Props.SocketTrace
import Verif.Model.TrackText
import Verif.Spec.TrackText
import Verif.Props.TrackText
import Verif.Model.Legacy
import Verif.Spec.Legacy
import Verif.Props.Legacy
import Verif.Tests
