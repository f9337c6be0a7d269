import Verif.Util
import Verif.Mailbox.Model
import Verif.Mailbox.Lemmas
import Verif.Mailbox.Props
import Verif.Lifecycle.Model
import Verif.Lifecycle.Basic
import Verif.Lifecycle.Trans
import Verif.Lifecycle.Shape
import Verif.Lifecycle.Order
import Verif.Lifecycle.Spec
import Verif.Lifecycle.Log
import Verif.Lifecycle.Slots
import Verif.Lifecycle.Runs
import Verif.Lifecycle.Facts
import Verif.Lifecycle.Replies
import Verif.Lifecycle.Start
import Verif.Lifecycle.Loss
import Verif.Lifecycle.PropsOrder
import Verif.Lifecycle.PropsStop
import Verif.Lifecycle.PropsReply
import Verif.Lifecycle.GiveUp
import Verif.Lifecycle.PropsResult
import Verif.Lifecycle.PropsExact
import Verif.Lifecycle.LinkHook
import Verif.Lifecycle.Turn
import Verif.Lifecycle.LostExact
import Verif.Lifecycle.StopExact
import Verif.Lifecycle.OrderExact
import Verif.Lifecycle.SelfExact
import Verif.Stream.Exact
import Verif.Stream.BackExact
import Verif.System.LastWordsExact
import Verif.Lifecycle.Barrier
import Verif.Lifecycle.Told
import Verif.Lifecycle.ToldExact
import Verif.Lifecycle.AskSide
import Verif.System.Model
import Verif.System.Lemmas
import Verif.System.Inv
import Verif.System.Flight
import Verif.System.Props
import Verif.System.Propagate
import Verif.System.Component
import Verif.System.Shutdown
import Verif.System.Live
import Verif.System.PropsLive
import Verif.System.LiveEx
import Verif.System.PropsCircle
import Verif.Locks.Model
import Verif.Locks.Props
import Verif.Locks.Circle
import Verif.Locks.Ring
import Verif.Locks.RingExact
import Verif.Locks.Registry
import Verif.Locks.OneThread
import Verif.Locks.Guards
import Verif.Map
import Verif.Request.Model
import Verif.Request.Props
import Verif.Request.Forward
import Verif.Request.HandleExact
import Verif.Reply.Model
import Verif.Reply.Props
import Verif.Registry.Model
import Verif.Registry.Props
import Verif.ActorId.Model
import Verif.ActorId.Props
import Verif.ActorId.StableExact
import Verif.Lifecycle.Prefix
import Verif.Lifecycle.Live
import Verif.Lifecycle.LiveInv
import Verif.Lifecycle.LiveEx
import Verif.Lifecycle.PropsLive
import Verif.Lifecycle.PropsSender
import Verif.Lifecycle.Outcome
import Verif.Lifecycle.CrashExact
import Verif.Stream.Model
import Verif.Stream.Props
import Verif.Stream.Outcome
import Verif.Current.Model
import Verif.Current.Props
import Verif.Hook.Model
import Verif.Hook.Props
import Verif.Pool.Model
import Verif.Pool.Lemmas
import Verif.Pool.Requests
import Verif.Pool.Props
import Verif.Pool.DispatchExact
import Verif.Pool.Upgrade
import Verif.Pool.Answer
import Verif.Pool.PropsAnswer
import Verif.PubSub.Model
import Verif.PubSub.Props
import Verif.PubSub.Slow
import Verif.PubSub.Order
import Verif.Router.Model
import Verif.Router.Lemmas
import Verif.Router.Props
import Verif.Router.Kept
import Verif.Router.Order
import Verif.Router.Strategies
import Verif.Wire.Model
import Verif.Wire.Props
import Verif.Wire.PropsText
import Verif.Wire.TextDebug
import Verif.Remote.Model
import Verif.Remote.Props
import Verif.Remote.Links
import Verif.Remote.Tell
import Verif.Remote.Order
import Verif.Remote.AnyOrder
import Verif.Remote.Unlink
import Verif.Remote.Flight
import Verif.Remote.PropsFlight
import Verif.Remote.Asks
import Verif.Remote.AsksInv
import Verif.Remote.PropsAsks
import Verif.Remote.AsksTold
import Verif.Swarm.Record
import Verif.Swarm.PropsRecord
import Verif.Swarm.Model
import Verif.Swarm.Inv
import Verif.Swarm.Steps
import Verif.Swarm.Props
import Verif.Swarm.Live
import Verif.Swarm.PropsPanic
import Verif.Swarm.PropsNames
import Verif.Swarm.NamesExact
import Verif.Swarm.DeadExact
import Verif.Swarm.Peers
import Verif.Swarm.PropsPeers
import Verif.Swarm.Sweep
import Verif.Swarm.Relink
import Verif.Swarm.RelinkExact
import Verif.Swarm.Serve
import Verif.Swarm.Kinds
import Verif.Swarm.Network
import Verif.Swarm.OwnNode
import Verif.Listed.Props
import Verif.Listed.Exact
import Verif.Macros.PropsGenerics
import Verif.Macros.Derive
import Verif.Macros.Remote
import Verif.Macros.PropsRemote
import Verif.System.Honoured
import Verif.System.ComponentStart
import Verif.System.Unlinked
import Verif.System.TellExact
import Verif.System.Forgotten
import Verif.System.ForgottenExact
import Verif.System.LastWords
import Verif.Handles.Props
import Verif.Timed.Model
import Verif.Timed.Lemmas
import Verif.Timed.Props
import Verif.Lifecycle.PropsWait
import Verif.Lifecycle.WaitExact
import Verif.Calls.Model
import Verif.Calls.Mb
import Verif.Calls.Inv
import Verif.Calls.Steps
import Verif.Calls.Live
import Verif.Calls.Trace
import Verif.Calls.Stuck
import Verif.Calls.Runs
import Verif.Calls.Props
import Verif.Calls.PropsCircle
import Verif.Calls.PropsWarn
import Verif.Calls.SelfTell
import Verif.Calls.Causal
import Verif.Next.Model
import Verif.Next.Inv
import Verif.Next.Replies
import Verif.Next.Log
import Verif.Next.Slots
import Verif.Next.Late
import Verif.Next.Props
import Verif.Next.PropsBad
import Verif.Next.PropsMore
import Verif.Plain.Spec
import Verif.Plain.Lists
import Verif.Plain.Sim
import Verif.Plain.Core
import Verif.Plain.Steps
import Verif.Plain.Tr
import Verif.Plain.Forward
import Verif.Plain.Backward
import Verif.Plain.Props
import Verif.Blocking.Props
import Verif.PanicLock.Props
import Verif.PanicLock.Exact
import Verif.Boot.Props
import Verif.Boot.PropsSolo
import Verif.Boot.PropsEnding
import Verif.Boot.EndingExact
import Verif.GiveUp.Model
import Verif.GiveUp.Props
import Verif.GiveUp.Journal
import Verif.Atomic.Model
import Verif.Atomic.Props
import Verif.Atomic.System
