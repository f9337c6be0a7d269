import Verif.Swarm.Record

/-
Model of the swarm task of a node, `ActorSwarmHandler` (`src/remote/swarm.rs` L486-997), with the tasks it spawns, the
command channel (`SwarmSender`, L1000-1019) and the futures of the callers (`SwarmFuture`, L1718-1734).

libp2p is not part of /repo. Of it is assumed: request ids and query ids are fresh (`OutboundRequestId`,
`kad::QueryId`); `kad::Behaviour::put_record` stores the record locally, with this node as publisher, before it starts
the query; `kad::Behaviour::remove_record` removes a record only if this node is its publisher, and `kad::Record::new`
sets no publisher. Which events happen, in which order, with which contents, is arbitrary: so is what other nodes store
here. The number of connected peers is arbitrary and may change at any time.
-/

namespace Verif.Swarm

open Verif.ActorId
open Verif.Request (Out)
open Verif.Remote (Bytes Req Resp)
open Verif.Wire (RErr Reason)

variable {P : Type}

/-- A record key: the bytes of a name, `src/remote/swarm.rs` L289, L325, L367, L402. Names and their bytes are the same
thing here. -/
abbrev Key := String

/-- `SwarmRequest`, `src/remote/swarm.rs` L1229-1298. A tell has no reply timeout: the field of `Req` is `none`. -/
inductive WireReq (P : Type) where
  | ask (r : Req (ActorID P))
  | tell (r : Req (ActorID P))
  | link (id : ActorID P) (rid : String) (sib : ActorID P) (srid : String)
  | unlink (id : ActorID P) (rid : String) (sib : ActorID P)
  | signalLinkDied (dead notified : ActorID P) (rid : String) (reason : Reason P)

/-- `kad::PutRecordError`, as `src/remote/swarm.rs` L386-389 tells its variants apart. -/
inductive PutErr where
  | quorumFailed (quorum : Nat)
  | timeout
  deriving DecidableEq, Repr

/-- The commands with a reply sender, `SwarmCommand`, `src/remote/swarm.rs` L1021-1190. What `listen_on` and `dial` give is
libp2p's: a `Bool`. -/
inductive Cmd (P : Type) where
  | listenOn (res : Bool)
  | dial (res : Bool)
  | lookup (key : Key)
  | lookupLocal (key : Key)
  | register (key : Key) (value : Bytes)
  | unregister (key : Key)
  | ask (peer : P) (r : Req (ActorID P))
  | tell (peer : P) (r : Req (ActorID P))
  | link (id : ActorID P) (rid : String) (sib : ActorID P) (srid : String)
  | unlink (id : ActorID P) (sib : ActorID P) (srid : String)
  | signalLinkDied (dead notified : ActorID P) (rid : String) (reason : Reason P)

/-- The commands without a reply sender, `src/remote/swarm.rs` L1039-1049 and L1119-1189. `ch` is the response channel.
-/
inductive Note where
  | addPeerAddress
  | disconnectPeerId
  | sendAskResponse (res : Except (RErr Bytes) Bytes) (ch : Nat)
  | sendTellResponse (res : Except (RErr Bytes) Unit) (ch : Nat)
  | sendLinkResponse (res : Except (RErr Bytes) Unit) (ch : Nat)
  | sendUnlinkResponse (res : Except (RErr Bytes) Unit) (ch : Nat)
  | sendSignalLinkDiedResponse (res : Except (RErr Bytes) Unit) (ch : Nat)

/-- What is in the command channel: `reply` stands for the sender of a oneshot channel
(`send_with_reply`, `src/remote/swarm.rs` L1009-1018). -/
inductive Item (P : Type) where
  | call (reply : Nat) (c : Cmd P)
  | note (n : Note)

/-- What is sent into a reply sender. The types of the `reply` fields of `SwarmCommand`,
`src/remote/swarm.rs` L1023-1189. -/
inductive Ans (P : Type) where
  | transport (res : Bool)
  | record (r : Except GetErr Bytes)
  | registration (r : Option (Registration P))
  | put (r : Except PutErr Unit)
  | resp (r : Resp)

/-- Where the result of a spawned task goes: into the reply sender of a command handled without peers
(`src/remote/swarm.rs` L622-635 and the like), or back to the swarm as a command that answers the peer's request
(L874-890 and the like). -/
inductive Sink where
  | reply (tx : Nat)
  | channel (ch : Nat)
  deriving DecidableEq, Repr

/-- A spawned task that runs `remote::ask` and the like: `src/remote/swarm.rs` L622-635, L660-672, L699-709, L729-734,
L754-764, L874-960. -/
structure Task (P : Type) where
  sink : Sink
  req : WireReq P

/-- The result of `remote::ask` (`bytes`) or of `remote::tell`, `link`, `unlink`, `signal_link_died` (`unit`),
`src/remote.rs` L150-237 (Verif.Remote.Model). -/
structure TaskOut where
  bytes : Except (RErr Bytes) Bytes
  unit : Except (RErr Bytes) Unit

/-- The swarm events handled by `handle_event`, `src/remote/swarm.rs` L785-996. -/
inductive Event (P : Type) where
  | connectionClosed (p : P)
  | mdns
  /-- `GetRecordOk::FoundRecord` -/
  | getFound (q : Nat) (value : Bytes)
  /-- another `GetRecordOk` -/
  | getProgress (q : Nat)
  | getErr (q : Nat) (e : GetErr)
  | putResult (q : Nat) (res : Except PutErr Unit)
  | request (ch : Nat) (r : WireReq P)
  | response (i : Nat) (r : Resp)
  /-- `e`: the error as translated at `src/remote/swarm.rs` L981-990. -/
  | outboundFailure (i : Nat) (e : RErr Empty)
  | other

/-- A record in the local store. `kad::Record`, made at `src/remote/swarm.rs` L357-371 and
L602. -/
structure Stored (P : Type) where
  value : Bytes
  publisher : Option P
  deriving DecidableEq, Repr

/-- The swarm task of the node with peer id `own` and what surrounds it. `queue` is the command channel; `gets`, `puts`,
`reqs` are `get_queries`, `put_queries`, `requests` (`src/remote/swarm.rs` L496-504), which hold reply senders. The last
fields record what happened: requests handed to the network, answers sent into reply senders, reply senders dropped
without an answer, responses sent to peers. -/
structure State (P : Type) where
  own : P
  /-- the task has not panicked. -/
  alive : Bool := true
  peers : Nat := 0
  store : Map Key (Stored P) := []
  queue : List (Item P) := []
  gets : Map Nat Nat := []
  puts : Map Nat Nat := []
  reqs : Map Nat Nat := []
  tasks : Map Nat (Task P) := []
  nextQuery : Nat := 0
  nextReq : Nat := 0
  nextTx : Nat := 0
  nextTask : Nat := 0
  sent : List (Nat × P × WireReq P) := []
  answers : List (Nat × Ans P) := []
  dropped : List Nat := []
  responded : List (Nat × Resp) := []

/-- `ActorID::peer_id` on a node that has been bootstrapped, `src/actor/id.rs` L98-101, L222-230: never `None`. -/
def peerOf (own : P) (id : ActorID P) : P :=
  match id.peer with
  | .isLocal => own
  | .peerId p => p

/-- The reply sender of a command. The `reply` fields of `SwarmCommand`, `src/remote/swarm.rs`
L1023-1189. -/
def Item.tx : Item P → Option Nat
  | .call t _ => some t
  | .note _ => none

/-- The request that a command stands for and the peer it is sent to, `src/remote/swarm.rs` L637-647, L674-683, L711-716,
L736-739, L766-771 with L1535-1634; `none` for other commands. `Link` swaps the actor and its sibling. -/
def Cmd.wire (own : P) : Cmd P → Option (P × WireReq P)
  | .ask p r => some (p, .ask r)
  | .tell p r => some (p, .tell r)
  | .link id rid sib srid => some (peerOf own sib, .link sib srid id rid)
  | .unlink id sib srid => some (peerOf own sib, .unlink sib srid id)
  | .signalLinkDied dead notified rid reason => some (peerOf own notified, .signalLinkDied dead notified rid reason)
  | _ => none

/-- `let _ = reply.send(..)`. `src/remote/swarm.rs` L551-780, L828-962. -/
def State.answer (s : State P) (tx : Nat) (a : Ans P) : State P := { s with answers := s.answers ++ [(tx, a)] }

/-- The swarm task panics (while it holds the reply sender `tx`): the handler and the command channel are dropped with
every reply sender in them; whoever awaits one panics (`src/remote/swarm.rs` L1726-1733, `src/request/ask.rs` L817).
Spawned tasks live on. -/
def State.die (s : State P) (tx : Nat) : State P :=
  { s with
    alive := false
    dropped := s.dropped ++ tx :: (s.queue.filterMap Item.tx ++ s.gets.map (·.2) ++ s.puts.map (·.2) ++ s.reqs.map (·.2))
    queue := []
    gets := []
    puts := []
    reqs := [] }

/-- `tokio::spawn`. `src/remote/swarm.rs` L623, L661, L700, L730, L754, L878, L901, L921, L938,
L950. -/
def State.spawn (s : State P) (t : Task P) : State P :=
  { s with tasks := s.tasks.put s.nextTask t, nextTask := s.nextTask + 1 }

/-- A command that is a request: `src/remote/swarm.rs` L611-649, L650-685, L692-719, L723-742, L746-773. Without peers it
is handled on this node, whatever peer the id names. -/
def State.request (s : State P) (tx : Nat) (p : P) (r : WireReq P) : State P :=
  if s.peers = 0 then s.spawn ⟨.reply tx, r⟩
  else
    { s with
      sent := s.sent ++ [(s.nextReq, p, r)]
      reqs := s.reqs.put s.nextReq tx
      nextReq := s.nextReq + 1 }

/-- A query to the DHT whose result goes to `gets`, `src/remote/swarm.rs` L570-573. -/
def State.getQuery (s : State P) (tx : Nat) : State P :=
  { s with gets := s.gets.put s.nextQuery tx, nextQuery := s.nextQuery + 1 }

/-- A query to the DHT whose result goes to `puts`, `src/remote/swarm.rs` L589-595, L602-609. -/
def State.putQuery (s : State P) (tx : Nat) : State P :=
  { s with puts := s.puts.put s.nextQuery tx, nextQuery := s.nextQuery + 1 }

/-- `kademlia_remove_record`, `src/remote/swarm.rs` L1709-1711: only a record this node has published is removed. -/
def State.removeRecord [DecidableEq P] (s : State P) (k : Key) : State P :=
  match s.store.find k with
  | some r => if r.publisher = some s.own then { s with store := s.store.del k } else s
  | none => s

/-- `handle_command` for a command with a reply sender, `src/remote/swarm.rs` L551-780. `accepted`: whether the local
store takes a record (`MemoryStore::put` refuses values that are too large and more than a number of records). -/
def State.call [DecidableEq P] (c : PeerCodec P) (s : State P) (accepted : Bool) (tx : Nat) (cmd : Cmd P) : State P :=
  match cmd with
  | .listenOn res => s.answer tx (.transport res)
  | .dial res => s.answer tx (.transport res)
  | .lookup _ => s.getQuery tx
  | .lookupLocal k =>
    match s.store.find k with
    | none => s.answer tx (.registration none)
    | some r =>
      match Registration.fromBytes c r.value with
      | .panic => s.die tx
      | .val reg => s.answer tx (.registration (some reg))
  | .register k v =>
    if !accepted then s.die tx
    else if s.peers = 0 then { s with store := s.store.put k ⟨v, none⟩ }.answer tx (.put (.ok ()))
    else { s with store := s.store.put k ⟨v, some s.own⟩ }.putQuery tx
  | .unregister k =>
    if s.peers = 0 then (s.removeRecord k).answer tx (.put (.ok ()))
    else if !accepted then s.die tx
    else ({ s with store := s.store.put k ⟨[], some s.own⟩ }.removeRecord k).putQuery tx
  | .ask p r => s.request tx p (.ask r)
  | .tell p r => s.request tx p (.tell r)
  | .link id rid sib srid => s.request tx (peerOf s.own sib) (.link sib srid id rid)
  | .unlink id sib srid => s.request tx (peerOf s.own sib) (.unlink sib srid id)
  | .signalLinkDied dead notified rid reason =>
    s.request tx (peerOf s.own notified) (.signalLinkDied dead notified rid reason)

/-- `send_response`, `src/remote/swarm.rs` L1636-1679. -/
def State.respond (s : State P) (ch : Nat) (r : Resp) : State P := { s with responded := s.responded ++ [(ch, r)] }

/-- `handle_command` for a command without a reply sender, `src/remote/swarm.rs` L564-569, L686-691, L720-722, L743-745,
L774-778. -/
def State.notice (s : State P) : Note → State P
  | .addPeerAddress => s
  | .disconnectPeerId => s
  | .sendAskResponse res ch => s.respond ch (.ask res)
  | .sendTellResponse res ch => s.respond ch (.tell res)
  | .sendLinkResponse res ch => s.respond ch (.link res)
  | .sendUnlinkResponse res ch => s.respond ch (.unlink res)
  | .sendSignalLinkDiedResponse res ch => s.respond ch (.signalLinkDied res)

/-- `handle_event`, `src/remote/swarm.rs` L785-996. The signals sent when a connection closes are in Verif.Swarm.Peers.
-/
def State.event (s : State P) : Event P → State P
  | .getFound q value =>
    match s.gets.find q with
    | some tx => { s with gets := s.gets.del q }.answer tx (.record (.ok value))
    | none => s
  | .getErr q e =>
    match s.gets.find q with
    | some tx => { s with gets := s.gets.del q }.answer tx (.record (.error e))
    | none => s
  | .putResult q res =>
    match s.puts.find q with
    | some tx => { s with puts := s.puts.del q }.answer tx (.put res)
    | none => s
  | .request ch r => s.spawn ⟨.channel ch, r⟩
  | .response i r =>
    match s.reqs.find i with
    | some tx => { s with reqs := s.reqs.del i }.answer tx (.resp r)
    | none => s
  | .outboundFailure i e =>
    match s.reqs.find i with
    | some tx => { s with reqs := s.reqs.del i }.answer tx (.resp (.outboundFailure e))
    | none => s
  | .connectionClosed _ => s
  | .mdns => s
  | .getProgress _ => s
  | .other => s

/-- What a task for a command handled without peers sends into the reply sender: `src/remote/swarm.rs` L634, L671, L708,
L733, L762. -/
def WireReq.answer (r : WireReq P) (o : TaskOut) : Resp :=
  match r with
  | .ask _ => .ask o.bytes
  | .tell _ => .tell o.unit
  | .link .. => .link o.unit
  | .unlink .. => .unlink o.unit
  | .signalLinkDied .. => .signalLinkDied o.unit

/-- The command a task for a peer's request sends to the swarm: `src/remote/swarm.rs` L889, L911, L929, L940, L958. -/
def WireReq.command (r : WireReq P) (o : TaskOut) (ch : Nat) : Note :=
  match r with
  | .ask _ => .sendAskResponse o.bytes ch
  | .tell _ => .sendTellResponse o.unit ch
  | .link .. => .sendLinkResponse o.unit ch
  | .unlink .. => .sendUnlinkResponse o.unit ch
  | .signalLinkDied .. => .sendSignalLinkDiedResponse o.unit ch

/-- A spawned task ends: with a result, or with a panic, which drops what it holds. A task that finds the command channel
closed panics (`src/remote/swarm.rs` L1003-1007). -/
def State.taskDone (s : State P) (t : Nat) (o : Out TaskOut) : State P :=
  match s.tasks.find t with
  | none => s
  | some task =>
    let s := { s with tasks := s.tasks.del t }
    match task.sink, o with
    | .reply tx, .val o => s.answer tx (.resp (task.req.answer o))
    | .reply tx, .panic => { s with dropped := s.dropped ++ [tx] }
    | .channel ch, .val o =>
      if s.alive then { s with queue := s.queue ++ [.note (task.req.command o ch)] } else s
    | .channel _, .panic => s

/-- The steps of the node. The loop `run`, `src/remote/swarm.rs` L517-544: a command or an event;
and the spawned tasks. -/
inductive Op (P : Type) where
  /-- `send_with_reply`: a caller sends a command -/
  | send (c : Cmd P)
  /-- `ActorSwarm::add_peer_address`, `src/remote/swarm.rs` L265-269 -/
  | addPeerAddress
  /-- `ActorSwarm::disconnect_peer_id`, `src/remote/swarm.rs` L276-279 -/
  | disconnectPeerId
  /-- the swarm task takes the next command, `src/remote/swarm.rs` L520 -/
  | recv (accepted : Bool)
  /-- the swarm task gets an event, `src/remote/swarm.rs` L521-537 -/
  | event (e : Event P)
  | taskDone (t : Nat) (o : Out TaskOut)
  /-- peers connect and disconnect -/
  | setPeers (n : Nat)
  /-- the local store takes a record from another node, or drops one that has expired: libp2p's doing -/
  | storeRemote (k : Key) (r : Option (Stored P))

/-- One step. Sending to a swarm task that has panicked panics (`src/remote/swarm.rs` L1003-1007): the reply sender, which
the command holds, is dropped. -/
def State.step [DecidableEq P] (c : PeerCodec P) (s : State P) : Op P → State P
  | .send cmd =>
    if s.alive then { s with queue := s.queue ++ [.call s.nextTx cmd], nextTx := s.nextTx + 1 }
    else { s with dropped := s.dropped ++ [s.nextTx], nextTx := s.nextTx + 1 }
  | .addPeerAddress => if s.alive then { s with queue := s.queue ++ [.note .addPeerAddress] } else s
  | .disconnectPeerId => if s.alive then { s with queue := s.queue ++ [.note .disconnectPeerId] } else s
  | .recv accepted =>
    if s.alive then
      match s.queue with
      | [] => s
      | .call tx cmd :: rest => { s with queue := rest }.call c accepted tx cmd
      | .note n :: rest => { s with queue := rest }.notice n
    else s
  | .event e => if s.alive then s.event e else s
  | .taskDone t o => s.taskDone t o
  | .setPeers n => { s with peers := n }
  | .storeRemote k r =>
    match r with
    | some r => { s with store := s.store.put k r }
    | none => { s with store := s.store.del k }

/-- The state after a sequence of steps, from a fresh handler (`ActorSwarmHandler::new`, `src/remote/swarm.rs` L507-515).
-/
def run [DecidableEq P] (c : PeerCodec P) (own : P) (ops : List (Op P)) : State P :=
  ops.foldl (State.step c) { own := own }

end Verif.Swarm
