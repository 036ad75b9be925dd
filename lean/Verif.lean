import Verif.Model.Addr
import Verif.Model.App
import Verif.Model.Auth
import Verif.Model.Basic
import Verif.Model.Builder
import Verif.Model.Client
import Verif.Model.Codec
import Verif.Model.Connect
import Verif.Model.Consumer
import Verif.Model.Crc
import Verif.Model.ErrorText
import Verif.Model.Framed
import Verif.Model.Message
import Verif.Model.ProtoSchema
import Verif.Model.ProtoTypes
import Verif.Model.ProtoWire
import Verif.Model.Session
import Verif.Model.Sys
import Verif.Model.TokenRequest
import Verif.Model.World
import Verif.Proof.Apart
import Verif.Proof.ApartApp
import Verif.Proof.ApartWorld
import Verif.Proof.App
import Verif.Proof.AppAsked
import Verif.Proof.AppConnect
import Verif.Proof.AppFlow
import Verif.Proof.AppLive
import Verif.Proof.AppOrder
import Verif.Proof.AppOwn
import Verif.Proof.AppPlace
import Verif.Proof.AppReach
import Verif.Proof.AppSolo
import Verif.Proof.AppStage
import Verif.Proof.AppWithin
import Verif.Proof.AutoAck
import Verif.Proof.Carried
import Verif.Proof.Codec
import Verif.Proof.CodecEdge
import Verif.Proof.Commands
import Verif.Proof.ConsumerBase
import Verif.Proof.ConsumerBatches
import Verif.Proof.ConsumerCalls
import Verif.Proof.ConsumerCodes
import Verif.Proof.ConsumerExact
import Verif.Proof.ConsumerFlow
import Verif.Proof.ConsumerForever
import Verif.Proof.ConsumerPlugins
import Verif.Proof.ConsumerSolo
import Verif.Proof.ConsumerStream
import Verif.Proof.ConsumerTraces
import Verif.Proof.Crc
import Verif.Proof.CrcSpec
import Verif.Proof.Cuts
import Verif.Proof.Framed
import Verif.Proof.Message
import Verif.Proof.MkMsg
import Verif.Proof.Noise
import Verif.Proof.NoiseApp
import Verif.Proof.NoiseWorld
import Verif.Proof.Owners
import Verif.Proof.ProtoFormat
import Verif.Proof.ProtoTyped
import Verif.Proof.ProtoWire
import Verif.Proof.Readable
import Verif.Proof.ReceiveForever
import Verif.Proof.Required
import Verif.Proof.Returns
import Verif.Proof.Session
import Verif.Proof.Sizes
import Verif.Proof.Supply
import Verif.Proof.SysBase
import Verif.Proof.SysCancel
import Verif.Proof.SysChannel
import Verif.Proof.SysCmd
import Verif.Proof.SysConn
import Verif.Proof.SysDeliver
import Verif.Proof.SysEvt
import Verif.Proof.SysHonest
import Verif.Proof.SysMade
import Verif.Proof.SysOnce
import Verif.Proof.SysPlaced
import Verif.Proof.SysReq
import Verif.Proof.SysRun
import Verif.Proof.SysService
import Verif.Proof.SysSimp
import Verif.Proof.SysStop
import Verif.Proof.SysTok
import Verif.Proof.SysWait
import Verif.Proof.SysWaiters
import Verif.Proof.Together
import Verif.Proof.World
import Verif.Proof.WorldCalls
import Verif.Proof.WorldFlow
import Verif.Proof.WorldHeld
import Verif.Proof.WorldLog
import Verif.Proof.WorldReach
import Verif.Proof.WorldServing
import Verif.Proof.WorldWrites
import Verif.Props.Acks
import Verif.Props.Apart
import Verif.Props.ApartExample
import Verif.Props.App
import Verif.Props.AppAnswered
import Verif.Props.AppAnsweredExample
import Verif.Props.AppAsked
import Verif.Props.AppAskedExample
import Verif.Props.AppCalls
import Verif.Props.AppExample
import Verif.Props.AppFail
import Verif.Props.AppLive
import Verif.Props.AppLiveExample
import Verif.Props.AppOrder
import Verif.Props.AppOrderExample
import Verif.Props.AppReach
import Verif.Props.AppReachExample
import Verif.Props.AppSend
import Verif.Props.AtLeastOnce
import Verif.Props.AtLeastOnceExample
import Verif.Props.AutoAck
import Verif.Props.AutoAckExample
import Verif.Props.BatchAck
import Verif.Props.Builder
import Verif.Props.Calls
import Verif.Props.Carried
import Verif.Props.CarriedExample
import Verif.Props.Cases
import Verif.Props.Commands
import Verif.Props.Concurrent
import Verif.Props.Confirmed
import Verif.Props.ConnectFails
import Verif.Props.ConnectFailsExample
import Verif.Props.ConnectReturns
import Verif.Props.ConnectReturnsExample
import Verif.Props.Cuts
import Verif.Props.CutsExample
import Verif.Props.Definition
import Verif.Props.Delivery
import Verif.Props.Encoding
import Verif.Props.EndToEnd
import Verif.Props.ErrorText
import Verif.Props.Flow
import Verif.Props.Forever
import Verif.Props.ForeverExample
import Verif.Props.Garbage
import Verif.Props.HeldUp
import Verif.Props.Ignored
import Verif.Props.Lifetime
import Verif.Props.OAuth
import Verif.Props.OnTheWire
import Verif.Props.OnePlace
import Verif.Props.OnePlaceExample
import Verif.Props.OneStream
import Verif.Props.OneStreamExample
import Verif.Props.PassedOn
import Verif.Props.PassedOnExample
import Verif.Props.Permits
import Verif.Props.PermitsExample
import Verif.Props.Plugins
import Verif.Props.Progress
import Verif.Props.Reach
import Verif.Props.ReachExample
import Verif.Props.Receive
import Verif.Props.ReceiveForever
import Verif.Props.ReceiveForeverAll
import Verif.Props.ReceiveForeverAllExample
import Verif.Props.ReceiveForeverExample
import Verif.Props.Reentrant
import Verif.Props.Relay
import Verif.Props.RequestIds
import Verif.Props.Requests
import Verif.Props.Rest
import Verif.Props.Returns
import Verif.Props.ReturnsExample
import Verif.Props.Routing
import Verif.Props.SentAndAcked
import Verif.Props.SentAndAckedExample
import Verif.Props.Service
import Verif.Props.Serving
import Verif.Props.Session
import Verif.Props.SettledExample
import Verif.Props.Setup
import Verif.Props.Shutdown
import Verif.Props.Stray
import Verif.Props.StrayExample
import Verif.Props.Supply
import Verif.Props.SupplyExample
import Verif.Props.TokenRequest
import Verif.Props.Undisturbed
import Verif.Props.UndisturbedExample
import Verif.Props.WholeBatches
import Verif.Props.Wire
import Verif.Spec.AckMeaning
import Verif.Spec.Alike
import Verif.Spec.Apart
import Verif.Spec.App
import Verif.Spec.Asked
import Verif.Spec.Auth
import Verif.Spec.AutoAck
import Verif.Spec.Builder
import Verif.Spec.Calls
import Verif.Spec.Carried
import Verif.Spec.Commands
import Verif.Spec.Consumer
import Verif.Spec.ConsumerForever
import Verif.Spec.Crc
import Verif.Spec.Cuts
import Verif.Spec.Definition
import Verif.Spec.Forever
import Verif.Spec.Form
import Verif.Spec.Frame
import Verif.Spec.Given
import Verif.Spec.Honest
import Verif.Spec.Lifetime
import Verif.Spec.Message
import Verif.Spec.OnePlace
import Verif.Spec.Order
import Verif.Spec.Proto
import Verif.Spec.ProtoFormat
import Verif.Spec.Reach
import Verif.Spec.ReceiveForever
import Verif.Spec.Received
import Verif.Spec.Relay
import Verif.Spec.Relays
import Verif.Spec.RequestIds
import Verif.Spec.Rest
import Verif.Spec.Returns
import Verif.Spec.SentAndAcked
import Verif.Spec.Service
import Verif.Spec.Session
import Verif.Spec.Stream
import Verif.Spec.Subscribed
import Verif.Spec.Supply
import Verif.Spec.Sys
import Verif.Spec.Together
import Verif.Spec.Traces
import Verif.Spec.Undisturbed
import Verif.Spec.Waiting
import Verif.Spec.World
