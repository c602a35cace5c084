import Verif.Props.Stream
import Verif.Props.I2np
import Verif.Props.Primitives
import Verif.Props.RouterInfo
import Verif.Props.Garlic
import Verif.Props.BuildRecord
import Verif.Props.StreamPacket
import Verif.Props.StreamManager
import Verif.Props.StreamHandshake
import Verif.Props.Listener
import Verif.Props.TunnelCrypto
import Verif.Props.TunnelData
import Verif.Props.TunnelFragment
import Verif.Props.Ntcp2
import Verif.Props.Ntcp2Session
import Verif.Props.Ssu2Fragment
import Verif.Props.Layout
import Verif.Props.Ssu2Block
import Verif.Props.Ssu2Packet
import Verif.Props.Ssu2Handshake
import Verif.Props.Ntcp2Handshake
import Verif.Props.Netdb
import Verif.Props.Routing
import Verif.Props.Transport
import Verif.Model.TunnelBuild
import Verif.Lemmas.TunnelBuild
import Verif.Props.TunnelBuild
import Verif.Props.TunnelBuildIn
import Verif.Props.TunnelTransit
import Verif.Props.TunnelDemo
import Verif.Props.TunnelReply
import Verif.Props.Profile
import Verif.Model.Selector
import Verif.Lemmas.Selector
import Verif.Props.Selector
import Verif.Model.Ratchet
import Verif.Props.Ratchet
import Verif.Model.Ecies
import Verif.Props.Ecies
import Verif.Model.Session
import Verif.Props.Session
import Verif.Props.SessionWindow
import Verif.Props.SessionFaults
import Verif.Props.SessionCrash
import Verif.Props.SessionPair
import Verif.Props.SessionTalk
import Verif.Props.SessionOpen
import Verif.Props.SessionChat
import Verif.Props.SessionUpkeep
import Verif.Model.AMap
import Verif.Model.RoutingPath
import Verif.Props.RoutingPath
import Verif.Props.RoutingPathRun
import Verif.Props.RoutingPathLease
import Verif.Props.RoutingPathQuery
import Verif.Props.RoutingPathExpire
import Verif.Props.PoolContext
import Verif.Props.Pool
import Verif.Props.PoolSize
import Verif.Props.PoolTable
import Verif.Props.PoolUpkeep
import Verif.Props.PoolTests
import Verif.Props.PoolFaults
import Verif.Props.PoolExamples
import Verif.Props.NetdbSettle
import Verif.Props.NetdbTime
import Verif.Props.NetdbQuery
import Verif.Props.NetdbSource
import Verif.Lemmas.NetdbCore
import Verif.Props.NetdbAsk
import Verif.Props.NetdbSend
import Verif.Lemmas.NetdbOut
import Verif.Props.NetdbServe
import Verif.Props.NetdbOut
import Verif.Props.NetdbCharge
import Verif.Model.Destination
import Verif.Lemmas.Destination
import Verif.Props.Destination
import Verif.Props.DestinationSend
import Verif.Props.DestinationHold
import Verif.Props.DestinationLimits
import Verif.Props.DestinationExamples
import Verif.Model.Publisher
import Verif.Props.Publisher
import Verif.Props.PublisherPace
import Verif.Props.PublisherLimits
import Verif.Props.PublisherExamples
import Verif.Props.PublisherKnown
import Verif.Model.SamSocket
import Verif.Props.SamSocket
import Verif.Model.SamParser
import Verif.Props.SamParser
import Verif.Props.SamOptions
import Verif.Props.SamHost
import Verif.Props.SamExamples
import Verif.Model.SamServer
import Verif.Props.SamServer
import Verif.Props.SamPending
import Verif.Props.SamServerExamples
import Verif.Model.SamSession
import Verif.Props.SamNaming
import Verif.Props.SamStreams
import Verif.Props.SamSessionExamples
import Verif.Model.Datagram
import Verif.Props.Datagram
import Verif.Props.DatagramExamples
import Verif.Model.I2cpSocket
import Verif.Props.I2cpSocket
import Verif.Model.I2cpMessage
import Verif.Props.I2cpMessage
import Verif.Model.I2cpSession
import Verif.Props.I2cpSession
import Verif.Model.I2cpServer
import Verif.Props.I2cpServer
import Verif.Model.Util
import Verif.Props.Util
import Verif.Model.Bloom
import Verif.Props.Bloom
import Verif.Model.Shutdown
import Verif.Props.Shutdown
import Verif.Model.Events
import Verif.Props.Events
import Verif.Props.Router
import Verif.Model.TransitEnd
import Verif.Props.TransitEnd
import Verif.Props.AddressBook
import Verif.Props.HttpProxy
import Verif.Props.Su3
import Verif.Props.Boot
import Verif.Props.Config
import Verif.Props.Storage
import Verif.Props.PortMapper
import Verif.Props.Tunnels
import Verif.Props.SamHello
import Verif.Props.Net
import Verif.Props.HopLoop
import Verif.Props.HopTask
import Verif.Props.Dsa
import Verif.Props.StreamLive
import Verif.Props.HttpAnswer
import Verif.Props.Runtime
import Verif.Props.EndToEnd
import Verif.Props.EndToEndExamples
import Verif.Props.Ssu2Socket
import Verif.Props.Ntcp2Link
import Verif.Props.Meet
import Verif.Props.Ntcp2Transport
import Verif.Props.NetdbFloodfill
import Verif.Props.SessionTags
import Verif.Props.Cli
import Verif.Props.Start
import Verif.Props.PoolSend
import Verif.Props.SessionRatchet
import Verif.Props.Ntcp2Interop
import Verif.Props.KeyDerivation
import Verif.Props.Wire
import Verif.Props.WireNetDb
import Verif.Props.Ssu2Interop
import Verif.Props.TunnelInterop
import Verif.Props.NetdbWire
import Verif.Props.WireOffline
import Verif.Props.GarlicInterop
import Verif.Props.TunnelDataInterop
import Verif.Props.StreamTask
import Verif.Props.StreamFirst
import Verif.Props.StreamPeer
import Verif.Props.TunnelTest
import Verif.Props.TunnelTestExamples
import Verif.Props.DatagramPeer
import Verif.Props.StreamJourney
import Verif.Props.JourneyLong
import Verif.Props.StreamJourneyExamples
import Verif.Props.StreamTwo
import Verif.Props.Details
import Verif.Props.SamStart
import Verif.Props.StreamPorts
import Verif.Props.I2cpExpires
import Verif.Props.PoolConfig
import Verif.Props.PoolWaits
import Verif.Props.SamEarly
import Verif.Props.Ssu2Send
import Verif.Props.StreamEnds
import Verif.Props.StreamSession
