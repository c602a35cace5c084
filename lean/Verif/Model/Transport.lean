import Verif.Model.Routing
import Verif.Model.Garlic
/-!
# Connections: `TransportManager`, `TransportService` and the router states of `TunnelManager`

Models /repo/emissary-core/src/transport/mod.rs and /repo/emissary-core/src/tunnel/mod.rs. Router ids are byte strings. Hash maps and
sets are functions. Metrics, logging, the router-info timer and the external address are not represented.
-/
namespace Emissary.Transport
open Emissary Emissary.I2np Emissary.Routing

/-- Not in the code: a helper of the model. -/
abbrev RouterId := Bytes

/-- Standard or external library, not in /repo. -/
def put {α : Type} (f : RouterId → α) (k : RouterId) (v : α) : RouterId → α := fun j => if j = k then v else f j

/-! ## `TransportManager` -/

/-- The sets of `TransportManager` (transport/mod.rs 571, 574, 589), and the routers in `ProfileStorage`. -/
structure Manager where
  known : RouterId → Bool := fun _ => false
  connected : RouterId → Bool := fun _ => false
  pending : RouterId → Bool := fun _ => false
  queries : RouterId → Bool := fun _ => false

/-- What reaches the manager. `queue` says whether the query channel of the network database has room.
Not in the code: the events that the theorems quantify over. -/
inductive Event where
  /-- a router info was added to the profile storage -/
  | learn (r : RouterId)
  /-- `ProtocolCommand::Connect` from a subsystem -/
  | connect (r : RouterId) (queue : Bool)
  /-- `TransportEvent::ConnectionEstablished` -/
  | inbound (r : RouterId)
  | outbound (r : RouterId)
  /-- `TransportEvent::ConnectionFailure` -/
  | failure (r : RouterId)
  /-- `TransportEvent::ConnectionClosed` -/
  | closed (r : RouterId)
  /-- a router info query succeeded -/
  | found (r : RouterId) (queue : Bool)
  /-- a router info query failed -/
  | notFound (r : RouterId)
deriving Repr, DecidableEq

/-- What the manager does. Not in the code: the effects that can be observed. -/
inductive Action where
  | dial (r : RouterId)
  | query (r : RouterId)
  | accept (r : RouterId)
  | reject (r : RouterId)
  | report (r : RouterId)
  | panic
deriving Repr, DecidableEq

/-- `on_dial_router` (715-794). -/
def Manager.dial (m : Manager) (r : RouterId) (queue : Bool) : Manager × List Action :=
  if m.known r then
    if m.pending r then (m, [])
    else ({ m with pending := put m.pending r true }, [.dial r])
  else if m.queries r then (m, [])
  else if queue then ({ m with pending := put m.pending r true, queries := put m.queries r true }, [.query r])
  else (m, [])

/-- The insertion into `routers` (833-858). -/
def Manager.admit (m : Manager) (r : RouterId) : Manager × List Action :=
  if m.connected r then (m, [.reject r])
  else ({ m with connected := put m.connected r true, pending := put m.pending r false }, [.accept r])

/-- One event of `TransportManager::poll` (809-951). -/
def Manager.step (chk : Bool) (m : Manager) : Event → Manager × List Action
  | .learn r => ({ m with known := put m.known r true }, [])
  | .connect r queue => m.dial r queue
  | .inbound r => if m.pending r then (m, [.reject r]) else m.admit r
  | .outbound r => if m.pending r then m.admit r else (m, if chk then [.panic] else [.reject r])
  | .failure r => ({ m with pending := put m.pending r false }, [])
  | .closed r => ({ m with connected := put m.connected r false }, [])
  | .found r queue =>
    { m with queries := put m.queries r false, pending := put m.pending r false }.dial r queue
  | .notFound r => ({ m with pending := put m.pending r false, queries := put m.queries r false }, [.report r])

/-- The state after a history and its log. Not in the code: a fold of the steps. -/
def Manager.run (chk : Bool) (m : Manager) : List Event → Manager × List (Event × List Action)
  | [] => (m, [])
  | e :: es =>
    let r := m.step chk e
    let q := r.1.run chk es
    (q.1, (e, r.2) :: q.2)

/-! ## `TunnelManager`: sending -/

/-- `RouterState` (tunnel/mod.rs 86-95). A feedback channel is a number. -/
inductive RouterState where
  | connected
  | dialing (pending : List (Bytes × Option Nat))
deriving Repr, DecidableEq

/-- `TunnelManager::routers` (124) and its `TransportService` (transport/mod.rs 274-289): `links` are the channels to the sessions,
`cmds` the channel to the transport manager, `events` the service's own event queue. -/
structure Sender where
  localId : RouterId
  routers : RouterId → Option RouterState := fun _ => none
  links : RouterId → Option (Chan Bytes) := fun _ => none
  cmds : Chan RouterId
  events : List RouterId := []

/-- What the sender does: a message was put into a session's channel, a feedback channel was signalled.
Not in the code: the effects that can be observed. -/
inductive Effect where
  | handed (r : RouterId) (m : Bytes)
  | signal (fb : Nat)
  | panic
deriving Repr, DecidableEq

/-- `TransportService::connect` (transport/mod.rs 302-321). -/
def Sender.connect (s : Sender) (r : RouterId) : Sender :=
  if (s.links r).isSome then { s with events := s.events ++ [r] }
  else { s with cmds := (s.cmds.trySend r).1 }

/-- `TransportService::send` (transport/mod.rs 330-353) and the signal its two callers give when it succeeds
(tunnel/mod.rs 256-260, 330-334). -/
def Sender.hand (s : Sender) (r : RouterId) (m : Bytes) (fb : Option Nat) : Sender × List Effect :=
  match s.links r with
  | none => (s, [])
  | some c => match c.trySend m with
    | (c, .ok) => ({ s with links := put s.links r (some c) }, .handed r m :: (fb.map Effect.signal).toList)
    | _ => (s, [])

/-- `TunnelManager::send_message` (tunnel/mod.rs 249-314). -/
def Sender.send (chk : Bool) (s : Sender) (r : RouterId) (m : Bytes) (fb : Option Nat) : Sender × List Effect :=
  match s.routers r with
  | some .connected => s.hand r m fb
  | some (.dialing p) => ({ s with routers := put s.routers r (some (.dialing (p ++ [(m, fb)]))) }, [])
  | none =>
    if r = s.localId then (s, if chk then [.panic] else [])
    else
      let s := s.connect r
      ({ s with routers := put s.routers r (some (.dialing [(m, fb)])) }, [])

/-- The loop of `on_connection_established` (329-342). -/
def Sender.flush (s : Sender) (r : RouterId) : List (Bytes × Option Nat) → Sender × List Effect
  | [] => (s, [])
  | (m, fb) :: p =>
    let (s, e) := s.hand r m fb
    let (s, e') := s.flush r p
    (s, e ++ e')

/-- `on_connection_established` (320-357), after `TransportService::poll_next` stored the channel (transport/mod.rs 388-391). -/
def Sender.established (chk : Bool) (s : Sender) (r : RouterId) (cap : Nat) : Sender × List Effect :=
  let s := { s with links := put s.links r (some { cap }) }
  match s.routers r with
  | some .connected => (s, if chk then [.panic] else [])
  | some (.dialing p) =>
    let (s, e) := { s with routers := put s.routers r none }.flush r p
    ({ s with routers := put s.routers r (some .connected) }, e)
  | none => ({ s with routers := put s.routers r (some .connected) }, [])

/-- Not in the code: the events that the theorems quantify over. -/
inductive SendOp where
  | send (r : RouterId) (m : Bytes) (fb : Option Nat)
  | established (r : RouterId) (cap : Nat)
  | closed (r : RouterId)
  | failed (r : RouterId)
  /-- the session takes a message out of its channel -/
  | take (r : RouterId)
  /-- the session ends -/
  | gone (r : RouterId)
  /-- the transport manager takes a command -/
  | takeCmd
deriving Repr, DecidableEq

/-- One step of the manager or of what it talks to: `on_connection_closed` (360-371), `on_connection_failure` (376-383). -/
def Sender.step (chk : Bool) (s : Sender) : SendOp → Sender × List Effect
  | .send r m fb => s.send chk r m fb
  | .established r cap => s.established chk r cap
  | .closed r => ({ s with links := put s.links r none, routers := put s.routers r none }, [])
  | .failed r => ({ s with routers := put s.routers r none }, [])
  | .take r => ({ s with links := put s.links r ((s.links r).map fun c => c.recv.1) }, [])
  | .gone r => ({ s with links := put s.links r ((s.links r).map fun c => { c with closed := true }) }, [])
  | .takeCmd => ({ s with cmds := s.cmds.recv.1 }, [])

/-- Not in the code: a fold of the steps. -/
def Sender.run (chk : Bool) (s : Sender) : List SendOp → Sender × List (SendOp × List Effect)
  | [] => (s, [])
  | o :: os =>
    let r := s.step chk o
    let q := r.1.run chk os
    (q.1, (o, r.2) :: q.2)

/-! ## `TunnelManager`: received messages -/

/-- `DeliveryInstructions` of a decrypted garlic clove (tunnel/garlic.rs 45-81); `message` is what is to be sent. -/
inductive Instr where
  | localMsg (m : Message)
  | router (r : RouterId) (message : Bytes)
  | tunnel (r : RouterId) (tunnel : Nat) (message : Bytes)
  | destination
deriving Repr, DecidableEq

/-- Where a received message ends up. Not in the code: the effects that can be observed. -/
inductive Fate where
  | routed (m : Message)
  | netdb (m : Message)
  | sent (r : RouterId) (message : Bytes)
  | dropped
  | panic
deriving Repr, DecidableEq

/-- `on_message` (467-523) and `on_garlic` (389-438). `decrypt` is `GarlicHandler::handle_message`; cloves may nest, and `fuel`
bounds how deep. The duplicate filter is switched off in the code (474). -/
def onMessage (chk : Bool) (decrypt : Message → Option (List Instr)) : Nat → Message → List Fate
  | 0, _ => []
  | fuel + 1, m =>
    match m.type with
    | .tunnelData | .tunnelGateway | .variableTunnelBuild | .shortTunnelBuild | .outboundTunnelBuildReply | .tunnelBuild => [.routed m]
    | .garlic => match decrypt m with
      | none => [.dropped]
      | some is => is.flatMap fun i => match i with
        | .localMsg m => onMessage chk decrypt fuel m
        | .router r m => [.sent r m]
        | .tunnel r _ m => [.sent r m]
        | .destination => [if chk then .panic else .dropped]
    | .tunnelBuildReply | .data | .variableTunnelBuildReply => [if chk then .panic else .dropped]
    | .deliveryStatus | .databaseStore | .databaseLookup | .databaseSearchReply => [.netdb m]

end Emissary.Transport
