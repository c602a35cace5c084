import Verif.Model.TunnelData
/-!
# The tasks of tunnels

Models `tunnel/transit/{participant,inbound,outbound}.rs`, `tunnel/hop/inbound.rs` (140-266, 313-353), the sending side of
`tunnel/hop/outbound.rs` (67-189) and `tunnel/pool/zero_hop.rs`. Encryption, fragments and reassembly are in `TunnelData`.

Simplifications: a message comes with the time at which it is handled and the random values that are drawn for it; the task of a tunnel
is the sequence of the messages it takes from its channel, of the ticks of its event handle and of the end of its
timer. What becomes of a message given to the routing table is in `Routing`.
-/
namespace Emissary.Hop
open Emissary Emissary.I2np Emissary.Tunnel

/-- A message given to `RoutingTable::send_message`. Not in the code: the effects that can be observed. -/
structure Out where
  router : Bytes
  message : Bytes
deriving Repr, DecidableEq

/-- A message that a task takes from its channel, the time, and the random values drawn while it is handled.
Not in the code: what the model takes as given, for every value of it. -/
structure In where
  m : Message
  now : Duration
  ids : Nat → Nat
  rnd : Rnd

/-- The short I2NP message around tunnel messages: random id, eight seconds (participant.rs 109-114, transit/inbound.rs 144-149,
transit/outbound.rs 272-277, hop/outbound.rs 117-122). -/
def wrap (now : Duration) (ty : MessageType) (id : Nat) (payload : Bytes) : Bytes :=
  Message.serializeShort { type := ty, id := id, expiration := now + fromSecs 8, payload := payload }

/-- What a hop was told when it joined the tunnel: the next router, the tunnel id there, its keys. tunnel/transit/participant.rs 109-114. -/
structure Next where
  router : Bytes
  id : Nat
  keys : Keys

/-! ## Participants, gateways and endpoints -/

/-- `Participant`: one message (participant.rs 160-200). -/
def participantOn (A : Aes) (n : Next) (i : In) : List Out :=
  match i.m.type with
  | .tunnelData =>
    match participant A n.keys n.id i.m.payload with
    | some b => [⟨n.router, wrap i.now .tunnelData (i.ids 0) b⟩]
    | none => []
  | _ => []

/-- `InboundGateway`: one message (transit/inbound.rs 96-153, 213-266). `none`: a failed debug assertion. -/
def gatewayOn (A : Aes) (sha : Sha) (chk : Bool) (n : Next) (padding : Bytes) (i : In) : Option (List Out) :=
  match i.m.type with
  | .tunnelGateway =>
    match TunnelGateway.parse i.m.payload with
    | none => if chk then none else some []
    | some (t, _) =>
      match Message.parseStandard t.payload with
      | none => some []
      | some (inner, _) =>
        if inner.isExpired i.now then some []
        else some ((build sha n.id .loc t.payload padding i.rnd).mapIdx fun k b =>
          ⟨n.router, wrap i.now .tunnelData (i.ids k) (gatewaySend A n.keys b)⟩)
  | _ => if chk then none else some []

/-- What the endpoint does with a message that is complete (transit/outbound.rs 214-281). -/
def deliver (sha : Sha) (now : Duration) (id : Nat) (p : Message × DI) : Option Out :=
  if p.1.expiration < now then none
  else match p.2 with
    | .loc => none
    | .router hash => some ⟨hash, p.1.serializeShort⟩
    | .tunnel tid hash =>
      some ⟨hash, wrap now .tunnelGateway id (TunnelGateway.serialize ⟨tid, p.1.serializeStandard sha⟩)⟩

/-- The complete messages among the outputs of the fragment handler, each with its place. Not in the code: a helper of the model. -/
def ready (os : List (Option (Message × DI))) : List (Nat × (Message × DI)) :=
  (os.mapIdx fun k o => o.map fun p => (k, p)).filterMap id

/-- `OutboundEndpoint`: one message (transit/outbound.rs 141-286, 329-373). -/
def endpointOn (A : Aes) (sha : Sha) (chk : Bool) (keys : Keys) (h : Handler) (i : In) : Option (Handler × List Out) :=
  match i.m.type with
  | .tunnelData =>
    match Encrypted.parse i.m.payload with
    | none => if chk then none else some (h, [])
    | some _ =>
      match endpointOpen A sha keys i.m.payload with
      | none => some (h, [])
      | some bs => some ((h.blocks bs).1, (ready (h.blocks bs).2).filterMap fun p => deliver sha i.now (i.ids p.1) p.2)
  | _ => if chk then none else some (h, [])

/-- `InboundTunnel`: one message of any type (hop/inbound.rs 140-266): the messages handed to the pool. -/
def ownerOn (A : Aes) (sha : Sha) (hops : List Keys) (h : Handler) (m : Message) : Handler × List Message :=
  match ownerOpen A sha hops m.payload with
  | none => (h, [])
  | some bs => ((h.blocks bs).1, (ready (h.blocks bs).2).filterMap fun p => if p.2.2 = .loc then some p.2.1 else none)

/-- The messages that the task of an inbound tunnel takes from its channel, one after another (hop/inbound.rs 316-349). -/
def ownerRun (A : Aes) (sha : Sha) (hops : List Keys) (ms : List Message) : Handler × List Message :=
  ms.foldl (fun s m => ((ownerOn A sha hops s.1 m).1, s.2 ++ (ownerOn A sha hops s.1 m).2)) (Handler.new, [])

/-- `OutboundTunnel::{send_to_router,send_to_tunnel}` (hop/outbound.rs 67-188): `first` is the tunnel id at the first hop. -/
def ownerSends (A : Aes) (sha : Sha) (hops : List Keys) (router : Bytes) (first : Nat) (padding : Bytes) (di : DI) (message : Bytes)
    (now : Duration) (ids : Nat → Nat) (rnd : Rnd) : List Out :=
  (build sha first di message padding rnd).mapIdx fun k b => ⟨router, wrap now .tunnelData (ids k) (ownerSend A hops b)⟩

/-! ## The task of a transit tunnel -/

/-- The three kinds of transit tunnels. tunnel/transit/mod.rs 221-467. -/
inductive Role where
  | participant (n : Next)
  | gateway (n : Next) (padding : Bytes)
  | endpoint (keys : Keys)

/-- One message. Not in the code: one event, handled by the definitions above. -/
def Role.on (A : Aes) (sha : Sha) (chk : Bool) (r : Role) (h : Handler) (i : In) : Option (Handler × List Out) :=
  match r with
  | .participant n => some (h, participantOn A n i)
  | .gateway n padding => (gatewayOn A sha chk n padding i).map fun os => (h, os)
  | .endpoint keys => endpointOn A sha chk keys h i

/-- The task. `reported` is what it added to the bandwidth of all transit tunnels (events.rs 124-130). -/
structure Task where
  role : Role
  handler : Handler := Handler.new
  bandwidth : Nat := 0
  reported : Nat := 0
  sent : List Out := []
  over : Bool := false

/-- What a poll comes across: a message, the tick of the event handle, the end of the timer, the end of the channel.
Not in the code: the events that the theorems quantify over. -/
inductive Op where
  | message (i : In)
  | tick
  | expired
  | closed

/-- One step of `poll` (participant.rs 149-214, transit/inbound.rs 202-280, transit/outbound.rs 318-387). `none`: a panic. -/
def Task.step (A : Aes) (sha : Sha) (chk : Bool) (t : Task) (o : Op) : Option Task :=
  if t.over then some t
  else match o with
    | .message i => do
      let r ← t.role.on A sha chk t.handler i
      some { t with handler := r.1, sent := t.sent ++ r.2,
                    bandwidth := t.bandwidth + i.m.serializedLenShort + (r.2.map fun o => o.message.length).sum }
    | .tick => some { t with reported := t.reported + t.bandwidth, bandwidth := 0 }
    | .expired => some { t with over := true }
    | .closed => some { t with over := true }

/-- A history. Not in the code: a fold of the steps. -/
def Task.run (A : Aes) (sha : Sha) (chk : Bool) (t : Task) (os : List Op) : Option Task :=
  os.foldlM (Task.step A sha chk) t

/-! ## Zero-hop inbound tunnels -/

/-- `ZeroHopInboundTunnel` (zero_hop.rs 45-60): the queue of its channel of one message, the reply that was sent, whether the
channel's sender is in the routing table, whether the task is over. -/
structure Zero where
  queue : Option Message := none
  reply : Option Message := none
  listed : Bool := true
  over : Bool := false
deriving Repr, DecidableEq

/-- `on_message` (zero_hop.rs 84-113). -/
def replyIn (m : Message) : Option Message := do
  let (t, _) ← TunnelGateway.parse m.payload
  let (inner, _) ← Message.parseStandard t.payload
  return inner

/-- What happens to it: the routing table routes a message to it, it is polled before or after its timer.
Not in the code: the events that the theorems quantify over. -/
inductive ZOp where
  | route (m : Message)
  | poll (expired : Bool)

/-- One step (zero_hop.rs 116-151; routing_table.rs 208-248: a message for a full channel is dropped). -/
def Zero.step (z : Zero) : ZOp → Zero
  | .route m => if z.listed && z.queue.isNone then { z with queue := some m } else z
  | .poll expired =>
    if z.over then z
    else match z.queue with
      | some m => { queue := none, reply := replyIn m, listed := false, over := true }
      | none => if expired then { z with listed := false, over := true } else z

/-- Not in the code: a fold of the steps. -/
def Zero.run (os : List ZOp) : Zero := os.foldl Zero.step {}

end Emissary.Hop
