import Verif.Model.WebSocket
import Verif.Spec.Receive
import Verif.Spec.Send
import Verif.Spec.Fixtures
import Verif.Proofs.Listen
import Verif.Proofs.SendFrame
import Verif.Proofs.Events
import Verif.Proofs.Stale
import Verif.Props.Header
import Verif.Props.Send
import Verif.Props.Receive
import Verif.Props.Reject
import Verif.Props.Refuse
import Verif.Props.Truncate
import Verif.Props.Flow
import Verif.Props.EndToEnd
import Verif.Props.Answers
import Verif.Props.AsyncEquiv
import Verif.Props.AsyncPool
import Verif.Props.AsyncListener
import Verif.Props.AsyncPointer
import Verif.Props.AsyncSenders
import Verif.Props.SHA1
import Verif.Props.Handshake
import Verif.Props.Connector
import Verif.Props.ThreadedServer
import Verif.Props.AsyncServer
import Verif.Proofs.Exec
import Verif.Props.Fragments
import Verif.Props.Conversation
import Verif.Props.Resume
import Verif.Spec.Replace
import Verif.Props.Replace
import Verif.Props.AsyncSends
import Verif.Props.AsyncSendsHeard
import Verif.Props.ThreadSends
import Verif.Props.ThreadListen
import Verif.Props.ThreadLive
import Verif.Props.ThreadRaces
import Verif.Props.Link
import Verif.Props.ConnectionIO
import Verif.Props.Network
import Verif.Proofs.AsyncRest
import Verif.Props.AsyncLive
import Verif.Spec.Rest
import Verif.Props.NetworkLive
import Verif.Model.Session
import Verif.Spec.Session
import Verif.Proofs.ThreadSession
import Verif.Proofs.SessionSays
import Verif.Props.Session
import Verif.Spec.Moment
import Verif.Proofs.Moment
import Verif.Proofs.AsyncMoment
import Verif.Proofs.SendFailed
import Verif.Props.Moment
import Verif.Spec.Speech
import Verif.Proofs.Speech
import Verif.Props.Speech
import Verif.Spec.Defined
import Verif.Proofs.ThreadDefined
import Verif.Proofs.AsyncDefined
import Verif.Props.Defined
import Verif.Model.ThreadCalls
import Verif.Proofs.Streamed
import Verif.Props.Streamed
import Verif.Spec.Lifetime
import Verif.Proofs.AsyncLifetime
import Verif.Proofs.ThreadLifetime
import Verif.Props.Lifetime
import Verif.Props.AsyncRaces
import Verif.Props.Memory
import Verif.Props.PointersTasks
import Verif.Spec.Determined
import Verif.Props.Determined
import Verif.Proofs.AsyncInstalled
import Verif.Spec.Masking
import Verif.Proofs.AsyncMasks
import Verif.Proofs.ThreadMasks
import Verif.Proofs.SendLogOf
import Verif.Props.Masking
import Verif.Model.Process
import Verif.Spec.Process
import Verif.Proofs.ProcessPaths
import Verif.Proofs.ProcessPlug
import Verif.Proofs.ProcessJobs
import Verif.Proofs.ProcessView
import Verif.Proofs.ProcessAlone
import Verif.Props.Process
import Verif.Model.AsyncProcess
import Verif.Spec.AsyncProcess
import Verif.Proofs.AsyncProcessStep
import Verif.Proofs.AsyncProcessSim
import Verif.Proofs.AsyncProcessMove
import Verif.Proofs.AsyncProcessHere
import Verif.Proofs.AsyncProcessUser
import Verif.Proofs.AsyncProcessAlone
import Verif.Props.AsyncProcess
import Verif.Spec.Waits
import Verif.Props.ProcessWaits
import Verif.Spec.Service
import Verif.Proofs.AsyncAnswers
import Verif.Proofs.ThreadAnswers
import Verif.Props.Service
import Verif.Spec.ProcessRest
import Verif.Proofs.ProcessOrder
import Verif.Props.ProcessRest
import Verif.Props.RefuseAnywhere
import Verif.Spec.ProcessLive
import Verif.Proofs.ProcessLive
import Verif.Props.ProcessLive
import Verif.Props.Witnesses
import Verif.Props.Reuse
import Verif.Props.PartialAnywhere
import Verif.Props.AsyncMute
import Verif.Spec.Relay
import Verif.Proofs.ProcessRelay
import Verif.Props.Relay
import Verif.Spec.AsyncRelay
import Verif.Proofs.AsyncProcessRelay
import Verif.Props.AsyncRelay
import Verif.Model.Client
import Verif.Spec.Client
import Verif.Props.Client
import Verif.Spec.Again
import Verif.Proofs.Again
import Verif.Proofs.Thrown
import Verif.Props.Again
import Verif.Spec.Style
import Verif.Props.Style
import Verif.Model.AsyncStream
import Verif.Spec.AsyncStream
import Verif.Proofs.AsyncStream
import Verif.Proofs.AsyncStreamSim
import Verif.Proofs.AsyncStreamLift
import Verif.Proofs.AsyncStreamRun
import Verif.Props.AsyncStream
import Verif.Props.AsyncStreamEnds
import Verif.Spec.Polling
import Verif.Props.Polling
import Verif.Model.Polling
import Verif.Props.PollingHeader
import Verif.Spec.Together
import Verif.Props.Together
import Verif.Props.PollingThreads
import Verif.Proofs.Dialogue
import Verif.Props.Dialogue
import Verif.Proofs.AsyncHealthy
import Verif.Props.DialogueHealthy
import Verif.Model.TestApp
import Verif.Spec.TestApp
import Verif.Props.TestApp
import Verif.Proofs.ThreadHealthy
import Verif.Proofs.ThreadHealthyPool
import Verif.Proofs.AsyncOut
import Verif.Proofs.ThreadCatches
import Verif.Proofs.NetworkCatches
import Verif.Spec.Working
import Verif.Proofs.Working
import Verif.Props.Working
import Verif.Proofs.ThreadReacts
import Verif.Proofs.NetworkReacts
import Verif.Spec.Answering
import Verif.Proofs.Answering
import Verif.Props.Answering
import Verif.Props.AnsweringTest
import Verif.Model.Reentrant
import Verif.Spec.Reentrant
import Verif.Proofs.Reentrant
import Verif.Proofs.ReentrantClose
import Verif.Proofs.ReentrantBound
import Verif.Props.Reentrant
import Verif.Model.Gateway
import Verif.Spec.Gateway
import Verif.Proofs.Gateway
import Verif.Proofs.GatewayBound
import Verif.Proofs.GatewayWrites
import Verif.Proofs.SendFine
import Verif.Props.Gateway
import Verif.Props.GatewayWrites
import Verif.Props.GatewayPeer
import Verif.Props.GatewayWaits
import Verif.Proofs.GatewayLog
import Verif.Props.GatewayLog
import Verif.Proofs.ReentrantEnds
import Verif.Props.ReentrantEnds
