import Verif.Props.Wire
import Verif.Props.Topics
import Verif.Props.Compression
import Verif.Props.Pub
import Verif.Props.PubTimed
import Verif.Props.Admission
import Verif.Props.Rep
import Verif.Props.Backoff
import Verif.Props.Req
import Verif.Props.ReqRep
import Verif.Props.Sub
import Verif.Props.SubTold
import Verif.Props.Channel
import Verif.Props.Transport
import Verif.Props.Sim
import Verif.Props.JoinMap
import Verif.Props.EndToEnd
import Verif.Props.Frames
import Verif.Props.Returns
import Verif.Props.ReturnsRep
import Verif.Props.ReturnsPub
import Verif.Props.ReturnsSub
import Verif.Props.SubRetry
import Verif.Props.SubTopicLimit
import Verif.Props.ReqSocket
import Verif.Props.RepSocket
import Verif.Props.PubDrop
import Verif.Props.Dummynet
import Verif.Props.AcceptPoll
import Verif.Props.Stats
import Verif.Props.PubTopicLimit
import Verif.Props.Asleep
import Verif.Props.RepServer
import Verif.Props.PubServer
import Verif.Props.PubServerDrop
import Verif.Props.SubLoss
import Verif.Props.ReqRepLive
import Verif.Props.ReqRepCallers
import Verif.Props.CompressionSockets
import Verif.Props.ReqRetry
import Verif.Props.ReqRecover
import Verif.Props.SubRoom
import Verif.Props.TopicsSession
import Verif.Props.PubServerTopics
import Verif.Props.Endpoints
import Verif.Props.Options
import Verif.Props.E2ERoom
import Verif.Spec.HandshakePair
import Verif.Proofs.HandshakePair
import Verif.Props.HandshakePair
import Verif.Proofs.ReadingDry
import Verif.Spec.Quiet
import Verif.Props.ReqRepQuiet
import Verif.Spec.QuietPub
import Verif.Props.E2EQuiet
import Verif.Model.QuicConfig
import Verif.Props.QuicConfig
import Verif.Props.PubServerCalls
import Verif.Spec.Memory
import Verif.Proofs.Memory
import Verif.Proofs.PubMemory
import Verif.Props.PubMemory
import Verif.Props.Memory
import Verif.Props.Queues
import Verif.Props.SubCalls
import Verif.Props.Starve
import Verif.Model.OptionPanics
import Verif.Props.OptionPanics
import Verif.Props.ReqFailed
import Verif.Props.ReqWrap
import Verif.Proofs.SubGrow
import Verif.Props.Unsub
import Verif.Proofs.SubOrder
import Verif.Props.Reconnect
import Verif.Props.Lockout
import Verif.Props.AtMostOnce
import Verif.Model.BindFut
import Verif.Props.BindFut
import Verif.Props.OneOrder
import Verif.Model.RepTurn
import Verif.Props.RepStarve
import Verif.Spec.RepAlone
import Verif.Proofs.RepAlone
import Verif.Proofs.RepSolo
import Verif.Props.RepIsolated
import Verif.Spec.PubAlone
import Verif.Proofs.PubAlone
import Verif.Props.PubIsolated
import Verif.Spec.SubAlone
import Verif.Proofs.SubAlone
import Verif.Proofs.SubAloneRun
import Verif.Props.SubIsolated
import Verif.Props.RepSocketServe
import Verif.Props.SubChannel
import Verif.Props.SubTasks
import Verif.Props.RepDrops
import Verif.Props.ReqRepAnswered
import Verif.Props.ReqRepAccounted
import Verif.Props.PubAlone
import Verif.Props.RepAddress
import Verif.Spec.AccountPub
import Verif.Props.E2EAccount
import Verif.Props.E2EMoment
import Verif.Spec.Whereabouts
import Verif.Props.ReqRepMoment
import Verif.Spec.Crowd
import Verif.Props.Crowd
import Verif.Spec.Publishers
import Verif.Props.Publishers
import Verif.Props.RequestOrder
import Verif.Props.SubEndpoints
