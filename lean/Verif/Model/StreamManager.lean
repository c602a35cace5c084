import Verif.Model.StreamPacket
import Verif.Model.StreamPending
/-!
# The stream manager

Models `emissary-core/src/sam/protocol/streaming/mod.rs` (`StreamManager`).

Simplifications: hash maps are functions; every spawned stream future gets a fresh number `uid` (ghost, so that two
streams which reuse an id can be told apart); `running` is the `JoinSet` of stream futures; whether a channel had room,
a listener socket was available (`StreamListener::pop_socket`), a routing path existed, which pending streams are stale
and which random numbers were drawn are inputs of the step; ports, logging and SAM socket writes are omitted.
Destinations are identified by their hash (`DestinationId`).
-/
namespace Emissary.Mgr
open Emissary Emissary.Prim Emissary.Pkt

/-- An entry of `active` (mod.rs:234): remote destination and the stream behind the channel. -/
structure Active where
  dest : Bytes
  uid : Nat
deriving Repr, DecidableEq

/-- An entry of `pending_inbound` (mod.rs:263). -/
structure Pend where
  dest : Bytes
  sendId : Nat
  st : Stream.PendingStream
deriving Repr, DecidableEq

/-- An entry of `pending_outbound` (`PendingOutboundStream`, mod.rs:205-229). -/
structure Outb where
  dest : Bytes
  numSent : Nat
deriving Repr, DecidableEq

/-- `ShutdownHandler`, mod.rs:138-152. -/
inductive Shut where
  | idle | requested | done
deriving Repr, DecidableEq

/-- `StreamManager`, mod.rs:231-279. -/
structure Mgr where
  destination : Destination
  active : Nat → Option Active
  pendIn : Nat → Option Pend
  pendOut : Nat → Option Outb
  destStreams : Bytes → List Nat
  running : List (Nat × Nat)
  nextUid : Nat
  shut : Shut

/-- `StreamManager::new`, mod.rs:283-306. -/
def Mgr.new (d : Destination) : Mgr :=
  { destination := d, active := fun _ => none, pendIn := fun _ => none, pendOut := fun _ => none
    destStreams := fun _ => [], running := [], nextUid := 0, shut := .idle }

/-- Observable effects: a packet handed to a stream, events for the session, packets for the network.
Not in the code: the effects that can be observed. -/
inductive Out where
  | deliver (uid : Nat) (packet : Bytes)
  | opened (dest : Bytes) (inbound : Bool) (uid : Nat) (id : Nat)
  | closed (dest : Bytes)
  | rejected (dest : Bytes)
  | send (dest : Bytes) (packet : Builder)
  | shutDown

/-- `HashMap::insert` / `remove`. Standard or external library, not in /repo. -/
def upd {κ α : Type} [DecidableEq κ] (f : κ → α) (k : κ) (v : α) : κ → α := fun x => if x = k then v else f x

/-- `spawn_stream`, mod.rs:544-686. -/
def Mgr.spawn (m : Mgr) (id : Nat) (dest : Bytes) (inbound : Bool) : Mgr × List Out :=
  ({ m with active := upd m.active id (some { dest := dest, uid := m.nextUid })
            destStreams := upd m.destStreams dest (id :: m.destStreams dest)
            running := m.running ++ [(id, m.nextUid)]
            nextUid := m.nextUid + 1 },
   [.opened dest inbound m.nextUid id])

/-- The signature check of `on_synchronize`, mod.rs:340-406; `none` is an error. -/
def verifySyn (E : Env) (packet : Bytes) (p : Packet) : Option Destination := do
  let sig ← p.flags.signature
  let d ← p.flags.destination
  let key := p.flags.offline.getD d.key
  if packet.length < p.payload.length + key.sigLen then none
  else if E.verify key (overwrite packet (packet.length - p.payload.length - key.sigLen)
      (List.replicate key.sigLen 0)) sig then some d
  else none

/-- The SYN-ACK of `PendingStream::new`, pending.rs:100-108. -/
def synAck (local_ : Destination) (recvId sendId : Nat) : Builder :=
  { recvStreamId := sendId, sendStreamId := recvId, seq := 0, destination := some local_, synchronize := true
    signature := true }

/-- The inbound branch of `on_synchronize`, mod.rs:446-535, for a packet signed by `d`. -/
def Mgr.onInbound (m : Mgr) (p : Packet) (d : Destination) (sock : Bool) (rnd : Nat) : Option (Mgr × List Out) :=
  if p.nacks.length ≠ 8 then none
  else if (p.nacks.map (be 4)).flatten ≠ m.destination.hash then none
  else if sock then some (m.spawn p.recvStreamId d.hash true)
  else
    let pend : Pend := { dest := d.hash, sendId := rnd, st := Stream.PendingStream.new p.payload }
    some
      ({ m with pendIn := upd m.pendIn p.recvStreamId (some pend)
                destStreams := upd m.destStreams d.hash (p.recvStreamId :: m.destStreams d.hash) },
       [.send d.hash (synAck m.destination p.recvStreamId rnd)])

/-- `on_synchronize`, mod.rs:324-535. `sock` says whether a listener socket is available, `rnd` is the send stream id
drawn for a pending stream. -/
def Mgr.onSyn (E : Env) (m : Mgr) (packet : Bytes) (sock : Bool) (rnd : Nat) : Option (Mgr × List Out) := do
  let p ← Packet.parse E packet
  let d ← verifySyn E packet p
  match m.pendOut p.sendStreamId with
  | some o =>
    some (Mgr.spawn { m with pendOut := upd m.pendOut p.sendStreamId none } p.recvStreamId o.dest false)
  | none => m.onInbound p d sock rnd

/-- Removing a pending stream, mod.rs:834-841 and 850-857. -/
def Mgr.dropPending (m : Mgr) (id : Nat) (dest : Bytes) : Mgr :=
  { m with pendIn := upd m.pendIn id none
           destStreams := upd m.destStreams dest ((m.destStreams dest).filter (· ≠ id)) }

/-- The `pending_inbound` branch of `on_packet`, mod.rs:802-862, with `PendingStream::on_packet` (pending.rs:137-202). -/
def Mgr.onPending (E : Env) (m : Mgr) (id : Nat) (s : Pend) (packet : Bytes) : Mgr × List Out :=
  match Packet.parse E packet with
  | none => (m, [])
  | some p =>
    let r := s.st.onPacket (p.flags.reset || p.flags.close) p.seq p.payload
    let m' := { m with pendIn := upd m.pendIn id (some { s with st := r.1 }) }
    match r.2 with
    | .doNothing => (m', [])
    | .send ack => (m', [.send s.dest { recvStreamId := s.sendId, sendStreamId := id, ackThrough := ack }])
    | .sendAndDestroy =>
      (m.dropPending id s.dest, [.send s.dest { recvStreamId := s.sendId, sendStreamId := id, reset := true }])
    | .destroy => (m.dropPending id s.dest, [])

/-- `on_packet`, mod.rs:766-896; `none` is an error result (nothing changed). `room` says whether the stream's channel
accepted the packet. -/
def Mgr.onPacket (E : Env) (m : Mgr) (packet : Bytes) (room sock : Bool) (rnd : Nat) : Option (Mgr × List Out) := do
  let info ← Packet.peek packet
  match m.active info.recvStreamId with
  | some a => some (m, if room then [.deliver a.uid packet] else [])
  | none =>
    match m.pendIn info.recvStreamId with
    | some s => some (m.onPending E info.recvStreamId s packet)
    | none =>
      if bit info.flags 0 ∧ m.shut ≠ .requested then m.onSyn E packet sock rnd
      else do
        let _ ← Packet.parse E packet
        return (m, [])

/-- The SYN of `create_stream`, mod.rs:935-941. -/
def syn (local_ : Destination) (remote : Bytes) (id : Nat) : Builder :=
  { recvStreamId := id, sendStreamId := 0, nacks := some (words 8 remote), synchronize := true, signature := true
    destination := some local_ }

/-- `create_stream`, mod.rs:904-986, with the id drawn; the loop at 923-935 only ends with a free one, otherwise the
step does not happen. -/
def Mgr.createStream (m : Mgr) (remote : Bytes) (id : Nat) : Mgr × List Out :=
  if (m.active id).isNone ∧ (m.pendOut id).isNone then
    ({ m with pendOut := upd m.pendOut id (some { dest := remote, numSent := 1 })
              destStreams := upd m.destStreams remote (id :: m.destStreams remote) },
     [.send remote (syn m.destination remote id)])
  else (m, [])

/-- `remove_session`, mod.rs:989-1008. -/
def Mgr.removeSession (m : Mgr) (dest : Bytes) : Mgr :=
  let ids := m.destStreams dest
  { m with active := fun x => if x ∈ ids then none else m.active x
           pendIn := fun x => if x ∈ ids then none else m.pendIn x
           pendOut := fun x => if x ∈ ids then none else m.pendOut x
           destStreams := upd m.destStreams dest [] }

/-- One iteration of `on_listener_ready`, mod.rs:711-740: a pending stream `id` and a socket are available. -/
def Mgr.accept (m : Mgr) (id : Nat) : Mgr × List Out :=
  match m.pendIn id with
  | none => (m, [])
  | some s => Mgr.spawn { m with pendIn := upd m.pendIn id none } id s.dest true

/-- A stream future finishes: `poll_next`, mod.rs:1090-1128. -/
def Mgr.finished (m : Mgr) (id uid : Nat) : Mgr × List Out :=
  if (id, uid) ∈ m.running then
    let m := { m with running := m.running.erase (id, uid) }
    match m.active id with
    | none => (m, [])
    | some a =>
      let m := { m with active := upd m.active id none }
      if m.running.isEmpty ∧ m.shut = .requested then ({ m with shut := .done }, [.closed a.dest, .shutDown])
      else (m, [.closed a.dest])
  else (m, [])

/-- The SYN retry timer, mod.rs:1138-1229; `path` says whether a routing path exists. -/
def Mgr.synTimer (m : Mgr) (id : Nat) (path : Bool) : Mgr × List Out :=
  match m.pendOut id with
  | none => (m, [])
  | some o =>
    if path then
      if o.numSent < 3 then
        ({ m with pendOut := upd m.pendOut id (some { o with numSent := o.numSent + 1 }) },
         [.send o.dest (syn m.destination o.dest id)])
      else ({ m with pendOut := upd m.pendOut id none }, [.rejected o.dest])
    else (m, [])

/-- Pruning of stale pending streams, mod.rs:1232-1251. -/
def Mgr.prune (m : Mgr) (stale : List Nat) : Mgr :=
  { m with pendIn := fun x => if x ∈ stale then none else m.pendIn x }

/-- `shutdown`, mod.rs:1017-1037 (the signal to the active streams makes them finish). -/
def Mgr.shutdown (m : Mgr) : Mgr := { m with shut := .requested }

/-- The forced shutdown timer, mod.rs:196-204 and 1065-1075. -/
def Mgr.shutTimer (m : Mgr) : Mgr × List Out :=
  if m.shut = .requested then ({ m with shut := .done }, [.shutDown]) else (m, [])

/-- The inputs of the manager. Not in the code: the events that the theorems quantify over. -/
inductive Op where
  | packet (bytes : Bytes) (room sock : Bool) (rnd : Nat)
  | create (remote : Bytes) (id : Nat)
  | removeSession (dest : Bytes)
  | accept (id : Nat)
  | finished (id uid : Nat)
  | synTimer (id : Nat) (path : Bool)
  | prune (stale : List Nat)
  | shutdown
  | shutTimer

/-- One step. Not in the code: one event, handled by the definitions above. -/
def Mgr.step (E : Env) (m : Mgr) : Op → Mgr × List Out
  | .packet b room sock rnd => (m.onPacket E b room sock rnd).getD (m, [])
  | .create r id => m.createStream r id
  | .removeSession d => (m.removeSession d, [])
  | .accept id => m.accept id
  | .finished id uid => m.finished id uid
  | .synTimer id path => m.synTimer id path
  | .prune s => (m.prune s, [])
  | .shutdown => (m.shutdown, [])
  | .shutTimer => m.shutTimer

/-- Run a history; effects in order. Not in the code: a fold of the steps. -/
def Mgr.run (E : Env) (m : Mgr) : List Op → Mgr × List Out
  | [] => (m, [])
  | op :: ops =>
    let (m', o) := m.step E op
    let (m'', os) := m'.run E ops
    (m'', o ++ os)

end Emissary.Mgr
