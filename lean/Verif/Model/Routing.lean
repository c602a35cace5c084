import Verif.Model.TunnelData
/-!
# Message routing inside the router

Models `tunnel/routing_table.rs` (98-396), `subsystem.rs` (129-225), `shutdown.rs` (37-162) and the shutdown part of
`router/mod.rs` (425-472).

Channels live in a heap indexed by handles, so that the receiver returned to a caller and the sender kept in a table refer to
the same object. A `thingbuf` channel is a queue with a capacity. `chk`: built with debug assertions.
-/
namespace Emissary.Routing
open Emissary Emissary.I2np Emissary.Tunnel

/-- A bounded channel: capacity, queue and whether the receiver has been dropped. Standard or external library, not in /repo. -/
structure Chan (α : Type) where
  cap : Nat
  queue : List α := []
  closed : Bool := false
deriving Repr, DecidableEq

/-- Result of `try_send`. Standard or external library, not in /repo. -/
inductive SendRes where
  | ok
  | full
  | closed
deriving Repr, DecidableEq

/-- `Sender::try_send`. Standard or external library, not in /repo. -/
def Chan.trySend {α : Type} (c : Chan α) (a : α) : Chan α × SendRes :=
  if c.closed then (c, .closed)
  else if c.queue.length < c.cap then ({ c with queue := c.queue ++ [a] }, .ok)
  else (c, .full)

/-- `Receiver::recv`. Standard or external library, not in /repo. -/
def Chan.recv {α : Type} (c : Chan α) : Chan α × Option α :=
  match c.queue with
  | [] => (c, none)
  | a :: t => ({ c with queue := t }, some a)

/-- A `oneshot` channel. Standard or external library, not in /repo. -/
inductive Slot where
  | waiting
  | full (m : Message)
  | taken
  | dropped
deriving Repr, DecidableEq

/-- `RoutingKind` (routing_table.rs 58-86). -/
inductive Kind where
  | external (router : Bytes) (message : Bytes)
  | externalFb (router : Bytes) (message : Bytes) (fb : Nat)
  | internal (message : Message)
deriving Repr, DecidableEq

/-- Standard or external library, not in /repo. -/
def upd {α : Type} (f : Nat → Option α) (k : Nat) (v : Option α) : Nat → Option α := fun j => if j = k then v else f j

/-- `RoutingTable` (98-116) and the channels it refers to. `next` is the next unused handle. -/
structure Table where
  localId : Bytes
  tunnels : Nat → Option Nat := fun _ => none
  chans : Nat → Option (Chan Message) := fun _ => none
  listeners : Nat → Option Nat := fun _ => none
  slots : Nat → Option Slot := fun _ => none
  transit : Chan Message
  manager : Chan Kind
  signalled : List Nat := []
  next : Nat := 0

/-- Allocate a channel and file its sender under `id`. tunnel/routing_table.rs 98-116. -/
def Table.install (t : Table) (id size : Nat) : Table :=
  { t with tunnels := upd t.tunnels id (some t.next), chans := upd t.chans t.next (some { cap := size }), next := t.next + 1 }

/-- `try_add_tunnel` (137-152): the handle of the receiver, or `TunnelExists`. -/
def Table.tryAdd (t : Table) (id size : Nat) : Table × Option Nat :=
  if (t.tunnels id).isSome then (t, none) else (t.install id size, some t.next)

/-- `insert_tunnel` (158-173); `draws` are the values of the random number generator. `none`: still drawing. -/
def Table.insertTunnel (t : Table) (size : Nat) (draws : List Nat) : Table × Option (Nat × Nat) :=
  match draws.find? (fun id => (t.tunnels id).isNone) with
  | some id => (t.install id size, some (id, t.next))
  | none => (t, none)

/-- `remove_tunnel` (176-178). -/
def Table.removeTunnel (t : Table) (id : Nat) : Table := { t with tunnels := upd t.tunnels id none }

/-- `insert_listener` (182-197). -/
def Table.insertListener (t : Table) (draws : List Nat) : Table × Option (Nat × Nat) :=
  match draws.find? (fun id => (t.listeners id).isNone) with
  | some id =>
    ({ t with listeners := upd t.listeners id (some t.next), slots := upd t.slots t.next (some .waiting), next := t.next + 1 },
      some (id, t.next))
  | none => (t, none)

/-- `remove_listener` (200-202). -/
def Table.removeListener (t : Table) (id : Nat) : Table := { t with listeners := upd t.listeners id none }

/-- Result of routing a message: `Ok`, `FailedToParseRoute`, `RouteNotFound`, `ChannelFull`, `ChannelClosed`, or a failed
assertion or `expect`. error.rs, `RoutingError`. -/
inductive RouteRes where
  | ok
  | unparsable
  | notFound
  | full
  | closed
  | panic
deriving Repr, DecidableEq

/-- tunnel/routing_table.rs 200-248. -/
def SendRes.route : SendRes → RouteRes
  | .ok => .ok
  | .full => .full
  | .closed => .closed

/-- The tunnel a `TunnelData` or `TunnelGateway` message is for (209-225). -/
def tunnelIdOf (m : Message) : Option Nat :=
  match m.type with
  | .tunnelData => (Encrypted.parse m.payload).map (·.1.tunnelId)
  | .tunnelGateway => (TunnelGateway.parse m.payload).map (·.1.tunnelId)
  | _ => none

/-- `route_tunnel_message` (208-248). -/
def Table.routeTunnel (chk : Bool) (t : Table) (m : Message) : Table × RouteRes :=
  match tunnelIdOf m with
  | none => (t, .unparsable)
  | some id => match t.tunnels id with
    | none => (t, .notFound)
    | some h => match t.chans h with
      | none => (t, .notFound)
      | some c => match c.trySend m with
        | (c, .ok) => ({ t with chans := upd t.chans h (some c) }, .ok)
        | (_, .full) => (t, .full)
        | (_, .closed) => (t, if chk then .panic else .closed)

/-- `route_listener_message` (253-273). -/
def Table.routeListener (chk : Bool) (t : Table) (m : Message) : Table × RouteRes :=
  match t.listeners m.id with
  | some h =>
    let t := { t with listeners := upd t.listeners m.id none }
    match t.slots h with
    | some .waiting => ({ t with slots := upd t.slots h (some (.full m)) }, .ok)
    | _ => (t, if chk then .panic else .closed)
  | none => match t.transit.trySend m with
    | (c, r) => ({ t with transit := c }, r.route)

/-- `route_message` (276-282). -/
def Table.route (chk : Bool) (t : Table) (m : Message) : Table × RouteRes :=
  match m.type with
  | .tunnelData | .tunnelGateway => t.routeTunnel chk m
  | _ => t.routeListener chk m

/-- tunnel/routing_table.rs 276-282. -/
def Table.toManager (t : Table) (k : Kind) : Table × RouteRes :=
  match t.manager.trySend k with
  | (c, r) => ({ t with manager := c }, r.route)

/-- Local delivery (292-317, 348-375). -/
def Table.sendLocal (chk : Bool) (t : Table) (bytes : Bytes) : Table × RouteRes :=
  match Message.parseShort bytes with
  | none => (t, .panic)
  | some (m, _) => match m.type with
    | .tunnelData | .tunnelGateway | .shortTunnelBuild | .variableTunnelBuild => t.route chk m
    | _ => t.toManager (.internal m)

/-- A message that cannot be handed to the manager is parsed for the error value (320-330, 384-394). -/
def remoteErr (bytes : Bytes) (r : RouteRes) : RouteRes :=
  if r = .ok then .ok else match Message.parseShort bytes with
    | none => .panic
    | some _ => r

/-- `send_message` (289-333). -/
def Table.send (chk : Bool) (t : Table) (router bytes : Bytes) : Table × RouteRes :=
  if router = t.localId then t.sendLocal chk bytes
  else match t.toManager (.external router bytes) with
    | (t, r) => (t, remoteErr bytes r)

/-- `send_message_with_feedback` (339-396): a locally routed message is confirmed before it is routed. -/
def Table.sendFb (chk : Bool) (t : Table) (router bytes : Bytes) (fb : Nat) : Table × RouteRes :=
  if router = t.localId then match Message.parseShort bytes with
    | none => (t, .panic)
    | some _ => { t with signalled := t.signalled ++ [fb] }.sendLocal chk bytes
  else match t.toManager (.externalFb router bytes fb) with
    | (t, r) => (t, remoteErr bytes r)

/-- What the rest of the router does with the table and with the receivers it hands out.
Not in the code: the events that the theorems quantify over. -/
inductive Op where
  | tryAdd (id size : Nat)
  | insertTunnel (size : Nat) (draws : List Nat)
  | removeTunnel (id : Nat)
  | insertListener (draws : List Nat)
  | removeListener (id : Nat)
  | route (m : Message)
  | recv (h : Nat)
  | dropRecv (h : Nat)
  | listen (h : Nat)
  | dropListener (h : Nat)
  | recvTransit
deriving Repr, DecidableEq

/-- What the caller of an operation sees. Not in the code: the effects that can be observed. -/
inductive Seen where
  | tunnel (id h : Nat)
  | refused
  | listener (id h : Nat)
  | routed (r : RouteRes)
  | message (m : Option Message)
  | unit
deriving Repr, DecidableEq

/-- Receive from the channel with handle `h`. Not in the code: a helper of the model. -/
def Table.recvFrom (t : Table) (h : Nat) : Table × Option Message :=
  match t.chans h with
  | none => (t, none)
  | some c => match c.recv with
    | (c, m) => ({ t with chans := upd t.chans h (some c) }, m)

/-- Drop the receiver with handle `h`. Not in the code: a helper of the model. -/
def Table.dropFrom (t : Table) (h : Nat) : Table :=
  match t.chans h with
  | none => t
  | some c => { t with chans := upd t.chans h (some { c with closed := true, queue := [] }) }

/-- Await the oneshot with handle `h`. Not in the code: a helper of the model. -/
def Table.listen (t : Table) (h : Nat) : Table × Option Message :=
  match t.slots h with
  | some (.full m) => ({ t with slots := upd t.slots h (some .taken) }, some m)
  | _ => (t, none)

/-- Drop the oneshot receiver with handle `h`. Not in the code: a helper of the model. -/
def Table.dropListener (t : Table) (h : Nat) : Table :=
  match t.slots h with
  | some _ => { t with slots := upd t.slots h (some .dropped) }
  | none => t

/-- Not in the code: one event, handled by the definitions above. -/
def Table.step (chk : Bool) (t : Table) : Op → Table × Seen
  | .tryAdd id size => match t.tryAdd id size with
    | (t, some h) => (t, .tunnel id h)
    | (t, none) => (t, .refused)
  | .insertTunnel size draws => match t.insertTunnel size draws with
    | (t, some (id, h)) => (t, .tunnel id h)
    | (t, none) => (t, .refused)
  | .removeTunnel id => (t.removeTunnel id, .unit)
  | .insertListener draws => match t.insertListener draws with
    | (t, some (id, h)) => (t, .listener id h)
    | (t, none) => (t, .refused)
  | .removeListener id => (t.removeListener id, .unit)
  | .route m => match t.route chk m with
    | (t, r) => (t, .routed r)
  | .recv h => match t.recvFrom h with
    | (t, m) => (t, .message m)
  | .dropRecv h => (t.dropFrom h, .unit)
  | .listen h => match t.listen h with
    | (t, m) => (t, .message m)
  | .dropListener h => (t.dropListener h, .unit)
  | .recvTransit => match t.transit.recv with
    | (c, m) => ({ t with transit := c }, .message m)

/-- The state after `ops` and the log of what each operation returned. Not in the code: a fold of the steps. -/
def Table.run (chk : Bool) (t : Table) : List Op → Table × List (Op × Seen)
  | [] => (t, [])
  | o :: ops =>
    let r := t.step chk o
    let q := r.1.run chk ops
    (q.1, (o, r.2) :: q.2)

/-! ## Dispatching received messages -/

/-- `SubsystemHandle` (subsystem.rs 130-132): one event queue per registered subsystem, of `(router, message)` batches. Other
events are not represented. -/
structure Subsystems where
  chans : List (Chan (List (Bytes × Message)))
deriving Repr, DecidableEq

/-- `self.subsystems[i].try_send(..)`; an index out of range panics, a failed send is only logged. subsystem.rs 129-225. -/
def Subsystems.send (s : Subsystems) (i : Nat) (batch : List (Bytes × Message)) : Option Subsystems :=
  match s.chans[i]? with
  | none => none
  | some c => some { chans := s.chans.set i (c.trySend batch).1 }

/-- The closure of `dispatch_messages` (189-193): a message for the tunnel subsystem on the left, for the network database on the
right. -/
def splitMessage (router : Bytes) (m : Message) : Option (Bytes × Message) × Option (Bytes × Message) :=
  match m.destination with
  | .netDb => (none, some (router, m))
  | .tunnel => (some (router, m), none)

/-- `dispatch_messages` (184-225); `none` is a panic. -/
def Subsystems.dispatch (s : Subsystems) (router : Bytes) (ms : List Message) : Option Subsystems := do
  let split := ms.map (splitMessage router)
  let tunnel := (split.map (·.1)).filterMap id
  let netdb := (split.map (·.2)).filterMap id
  let s ← if tunnel.isEmpty then some s else s.send 0 tunnel
  if netdb.isEmpty then some s else s.send 1 netdb

/-! ## Shutdown -/

/-- A subsystem's `ShutdownHandle` (shutdown.rs 37-47) together with the channels behind it. -/
inductive Sub where
  /-- not asked to shut down -/
  | running
  /-- the request is in the channel -/
  | asked
  /-- the request was received (`shutting_down`, `tx` held) -/
  | stopping
  /-- acknowledged -/
  | stopped
  /-- the handle was dropped -/
  | gone
deriving Repr, DecidableEq

/-- `ShutdownContext` (85-97), the handles it gave out, and the router's counter (router/mod.rs 142). `handles` and `futures`
hold the numbers of the handles. -/
structure Shutdown where
  handles : List Nat := []
  futures : List Nat := []
  shuttingDown : Bool := false
  subs : List Sub := []
  count : Nat := 0
deriving Repr, DecidableEq

/-- `ShutdownContext::handle` (111-120). -/
def Shutdown.handle (s : Shutdown) : Shutdown :=
  { s with handles := s.handles ++ [s.subs.length], subs := s.subs ++ [.running] }

/-- The loop of `ShutdownContext::shutdown` (126-136) for one handle: sending fails if the handle is gone. -/
def Shutdown.ask (s : Shutdown) (i : Nat) : Shutdown :=
  match s.subs[i]? with
  | some .running => { s with subs := s.subs.set i .asked, futures := s.futures ++ [i] }
  | _ => s

/-- `ShutdownContext::shutdown` (123-141). -/
def Shutdown.begin (s : Shutdown) : Shutdown :=
  s.handles.foldl Shutdown.ask { s with shuttingDown := true, handles := [] }

/-- `ShutdownHandle::poll` (66-81) of subsystem `i`. -/
def Shutdown.pollSub (s : Shutdown) (i : Nat) : Shutdown × Bool :=
  match s.subs[i]? with
  | some .asked => ({ s with subs := s.subs.set i .stopping }, true)
  | _ => (s, false)

/-- `ShutdownHandle::shutdown` (56-60) of subsystem `i`. -/
def Shutdown.ack (s : Shutdown) (i : Nat) : Shutdown :=
  match s.subs[i]? with
  | some .stopping => { s with subs := s.subs.set i .stopped }
  | _ => s

/-- Subsystem `i` ends and drops its handle; a handle that was acknowledged stays so. Not in the code: a helper of the model. -/
def Shutdown.drop (s : Shutdown) (i : Nat) : Shutdown :=
  match s.subs[i]? with
  | some .stopped => s
  | some _ => { s with subs := s.subs.set i .gone }
  | none => s

/-- Whether the future `rx.await` of handle `i` is done: the other end sent or was dropped. shutdown.rs 56-60. -/
def Shutdown.done (s : Shutdown) (i : Nat) : Bool := s.subs[i]? == some .stopped || s.subs[i]? == some .gone

/-- `ShutdownContext::poll` (147-162). The join set returns finished futures and is pending when empty
(emissary-util/src/runtime/tokio.rs 257-270); the task of a future is assumed to run as soon as it can. -/
def Shutdown.poll (s : Shutdown) : Shutdown × Bool :=
  let s := { s with futures := s.futures.filter fun i => !s.done i }
  (s, s.futures.isEmpty && s.shuttingDown)

/-- `Router::shutdown` (router/mod.rs 425-438). -/
def Shutdown.request (s : Shutdown) : Shutdown :=
  let s := { s with count := s.count + 1 }
  if s.count = 1 then s.begin else s

/-- The shutdown part of `Router::poll` (router/mod.rs 465-472), `IMMEDIATE_SHUTDOWN_COUNT` = 2 (61). -/
def Shutdown.pollRouter (s : Shutdown) : Shutdown × Bool :=
  if s.count ≥ 2 then (s, true) else s.poll

/-- Not in the code: the events that the theorems quantify over. -/
inductive ShutOp where
  | handle
  | request
  | pollSub (i : Nat)
  | ack (i : Nat)
  | drop (i : Nat)
  | poll
deriving Repr, DecidableEq

/-- Not in the code: one event, handled by the definitions above. -/
def Shutdown.step (s : Shutdown) : ShutOp → Shutdown
  | .handle => s.handle
  | .request => s.request
  | .pollSub i => (s.pollSub i).1
  | .ack i => s.ack i
  | .drop i => s.drop i
  | .poll => s.pollRouter.1

/-- Not in the code: a fold of the steps. -/
def Shutdown.run (ops : List ShutOp) : Shutdown := ops.foldl Shutdown.step {}

end Emissary.Routing
