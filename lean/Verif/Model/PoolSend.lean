import Verif.Model.Pool
import Verif.Model.HopLoop
/-!
# What a tunnel pool sends for others

Models the loop of `TunnelPool::poll` that takes messages from the pool's context (`emissary-core/src/tunnel/pool/mod.rs` 1013-1283), the handles that put them
there (`tunnel/pool/handle.rs` 113-231, `tunnel/pool/context.rs` 84-117, 209-221) and `OutboundTunnel::{send_to_router,send_to_tunnel}` with the tunnel that is chosen.
The rest of the poll is `Pool`; encryption and fragments are in `TunnelData` and `HopLoop`.

Simplifications: which tunnel comes first in the hash map is given with every message; messages that arrive while the loop runs count as having arrived before it or after it; a
piece that the routing table does not take is lost (1049-1078, 1116-1126), which is in `Routing`; the channel closes when the pool ends. `TunnelSender` without a kind of
delivery panics (`handle.rs` 181, 209); all its users give one.
-/
namespace Emissary.PoolSend
open Emissary Emissary.Tunnel Emissary.Routing

/-- One hop of a tunnel, as its owner knows it. tunnel/hop/mod.rs 43-52. -/
structure Hop where
  router : Bytes
  id : Nat
  keys : Keys

/-- `OutboundTunnel` (hop/outbound.rs 49-64). A tunnel that was built has a hop (hop/pending.rs: `create_tunnel` fails without hops). -/
structure OutTunnel where
  first : Hop
  rest : List Hop := []
  padding : Bytes

/-- `TunnelMessage` (context.rs 285-349). A feedback channel is a number. -/
inductive Msg where
  | router (gateway : Nat) (router message : Bytes) (feedback : Option Nat)
  | tunnel (router : Bytes) (id : Nat) (message : Bytes)
  | routerVia (out : Option Nat) (router message : Bytes)
  | tunnelVia (out : Option Nat) (router : Bytes) (id : Nat) (message : Bytes)
  | inbound (message : I2np.Message)

/-- The random values and the clock while one message is handled, and the tunnel that the hash map gives first.
Not in the code: what the model takes as given, for every value of it. -/
structure Draw where
  first : Nat
  now : I2np.Duration
  ids : Nat → Nat
  rnd : Rnd

/-- What is told to the endpoint (mod.rs 1044, 1112-1113, 1178, 1252-1253), and the message. -/
def Msg.order : Msg → Option (DI × Bytes)
  | .router _ r m _ => some (.router r, m)
  | .tunnel r id m => some (.tunnel id r, m)
  | .routerVia _ r m => some (.router r, m)
  | .tunnelVia _ r id m => some (.tunnel id r, m)
  | .inbound _ => none

/-- The feedback channel of a message. context.rs 298-311. -/
def Msg.feedback : Msg → Option Nat
  | .router _ _ _ f => f
  | _ => none

/-- `self.outbound.iter().next()` (mod.rs 1096, 1141, 1162-1163, 1208, 1229-1230). -/
def anyOf (outbound : List Nat) (first : Nat) : Option Nat := if first ∈ outbound then some first else outbound.head?

/-- The tunnel of a message that may name one (mod.rs 1140-1176, 1207-1243). `none`: a failed debug assertion. -/
def via (chk : Bool) (outbound : List Nat) (first : Nat) : Option Nat → Option (Option Nat)
  | none => some (anyOf outbound first)
  | some id => if id ∈ outbound then some (some id) else if chk then none else some (anyOf outbound first)

/-- The tunnel over which a message is sent (mod.rs 1036-1042, 1096-1103, 1140-1176, 1207-1243, 1278-1283). `none`: a failed debug assertion. -/
def choose (chk : Bool) (outbound : List Nat) (first : Nat) : Msg → Option (Option Nat)
  | .router g _ _ _ => some (if g ∈ outbound then some g else none)
  | .tunnel _ _ _ => some (anyOf outbound first)
  | .routerVia out _ _ => via chk outbound first out
  | .tunnelVia out _ _ _ => via chk outbound first out
  | .inbound _ => some none

/-- `send_to_router` and `send_to_tunnel` (hop/outbound.rs 67-188). -/
def OutTunnel.send (A : Aes) (sha : Sha) (t : OutTunnel) (di : DI) (message : Bytes) (d : Draw) : List Hop.Out :=
  Hop.ownerSends A sha (t.first.keys :: t.rest.map (·.keys)) t.first.router t.first.id t.padding di message d.now d.ids d.rnd

/-- The first piece takes the feedback channel along (mod.rs 1046-1084). -/
def withFeedback (f : Option Nat) : List Hop.Out → List (Hop.Out × Option Nat)
  | [] => []
  | o :: os => (o, f) :: os.map (·, none)

/-- A message that was taken from the channel, and what was sent for it. Not in the code: the effects that can be observed. -/
structure Handled where
  msg : Msg
  sent : List (Hop.Out × Option Nat)

/-- One message (mod.rs 1028-1284). `none`: a failed debug assertion. -/
def handle (A : Aes) (sha : Sha) (chk : Bool) (outbound : List Nat) (tunnels : AMap Nat OutTunnel) (d : Draw) (m : Msg) : Option Handled := do
  let c ← choose chk outbound d.first m
  match c.bind tunnels.get, m.order with
  | some t, some (di, bytes) => return ⟨m, withFeedback m.feedback (t.send A sha di bytes d)⟩
  | _, _ => return ⟨m, []⟩

/-- The loop (mod.rs 1026-1286): what was handled, and what was left when an assertion failed. -/
def loop (A : Aes) (sha : Sha) (chk : Bool) (outbound : List Nat) (tunnels : AMap Nat OutTunnel) (ds : Nat → Draw) : Nat → List Msg → List Handled × Option (List Msg)
  | _, [] => ([], none)
  | k, m :: ms =>
    match handle A sha chk outbound tunnels (ds k) m with
    | none => ([⟨m, []⟩], some ms)
    | some h => (h :: (loop A sha chk outbound tunnels ds (k + 1) ms).1, (loop A sha chk outbound tunnels ds (k + 1) ms).2)

/-- The pool (mod.rs 172-235) with its outbound tunnels and its channel (context.rs 53, 373-377). `accepted` are the messages that the channel took, `handled` those that
were taken from it, `made` the tunnels that were built. -/
structure State where
  pool : Pool.State
  tunnels : AMap Nat OutTunnel := []
  queue : Chan Msg := { cap := 4096 }
  accepted : List Msg := []
  handled : List Handled := []
  made : List (Nat × OutTunnel) := []

/-- The outbound builds that are done (mod.rs 853-903): the tunnel goes into the map (881). -/
def insertBuilt (now : Nat) (built : Nat → OutTunnel) (x : Pool.State × AMap Nat OutTunnel × List (Nat × OutTunnel)) (r : Nat × Bool) :
    Pool.State × AMap Nat OutTunnel × List (Nat × OutTunnel) :=
  (x.1.outResult now r, if r.1 ∈ x.1.pendingOut ∧ r.2 = true then (x.2.1.put r.1 (built r.1), x.2.2 ++ [(r.1, built r.1)]) else x.2)

/-- The map of tunnels, and those that were built, after the builds of a poll. mod.rs 853-903. -/
def State.grown (s : State) (i : Pool.Input) (built : Nat → OutTunnel) : AMap Nat OutTunnel × List (Nat × OutTunnel) :=
  (i.outs.foldl (insertBuilt i.now built) ({ s.pool with clock := i.now, failed := 0 }, s.tunnels, s.made)).2

/-- The channel of a pool that has ended is closed. Standard or external library, not in /repo. -/
def State.closing (s : State) : State := { s with queue := { s.queue with closed := s.queue.closed || !s.pool.running } }

/-- `poll` (mod.rs 844-1465): the messages are handled after the results of builds and before tests and timers. -/
def State.poll (A : Aes) (sha : Sha) (chk : Bool) (s : State) (i : Pool.Input) (built : Nat → OutTunnel) (ds : Nat → Draw) : State :=
  if !s.pool.running then s
  else
    let g := s.grown i built
    let s := { s with tunnels := g.1, made := g.2 }
    if i.crashed then { s with pool := (s.pool.poll chk i).1 }.closing
    else
      let l := loop A sha chk (s.pool.results i).outbound s.tunnels ds 0 s.queue.queue
      let s := { s with handled := s.handled ++ l.1, queue := { s.queue with queue := l.2.getD [] } }
      match l.2 with
      | some _ => { s with pool := { s.pool.results i with running := false } }.closing
      | none => { s with pool := (s.pool.poll chk i).1 }.closing

/-- What happens: a handle sends a message, the pool is polled, the owner reads an event. Not in the code: the events that the theorems quantify over. -/
inductive Op where
  | send (m : Msg)
  | poll (i : Pool.Input) (built : Nat → OutTunnel) (ds : Nat → Draw)
  | read

/-- `try_send` of the handles (handle.rs 180-199, context.rs 86-117), `poll`, and the owner's `poll_next`. -/
def State.step (A : Aes) (sha : Sha) (chk : Bool) (s : State) : Op → State
  | .send m => { s with queue := (s.queue.trySend m).1, accepted := if (s.queue.trySend m).2 = .ok then s.accepted ++ [m] else s.accepted }
  | .poll i built ds => s.poll A sha chk i built ds
  | .read => { s with pool := s.pool.step chk .read }

/-- Not in the code: a fold of the steps. -/
def State.run (A : Aes) (sha : Sha) (chk : Bool) (s : State) (ops : List Op) : State := ops.foldl (State.step A sha chk) s

end Emissary.PoolSend
