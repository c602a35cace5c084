import Verif.Model.AMap
import Verif.Model.Routing
/-!
# Tunnel pools

Models `emissary-core/src/tunnel/pool/mod.rs` (`TunnelPool`: fields 172-235, build counts 299-320, `maintain_pool` 330-838, `poll` 844-1465), with the
timers of `tunnel/pool/timer.rs`, the results of `tunnel/pool/listener.rs`, the bookkeeping of the selectors (`tunnel/pool/selector.rs` 272-297, 672-699) and
the events of `tunnel/pool/context.rs` 414-483.

Times are milliseconds. Tunnels are their ids. The tasks that a pool waits for (builds, inbound tunnels, tests, timers) run on their own, so a poll is given which of them
have finished; what cannot have finished is ignored. Hop selection and tunnel creation are reduced to whether they give a new tunnel id. Not modelled here: the contents of build
messages, the messages that owners send (`PoolSend`), metrics, and the status reports to the event handle (1440-1448).
-/
namespace Emissary.Pool
open Emissary Emissary.Routing

/-- `TUNNEL_MAINTENANCE_INTERVAL`, `tunnel/pool/mod.rs` 83. -/
def maintenanceInterval : Nat := 10000
/-- `TUNNEL_TEST_INTERVAL`, `tunnel/pool/mod.rs` 101. -/
def testInterval : Nat := 15000
/-- `TUNNEL_REBUILD_TIMEOUT`, `tunnel/pool/timer.rs` 58. -/
def rebuildTimeout : Nat := 540000
/-- `TUNNEL_EXPIRATION`, `tunnel/mod.rs` 79. -/
def tunnelExpiration : Nat := 600000

/-- `TunnelPoolEvent`, `tunnel/pool/handle.rs` 39-92, without messages. A lease is reduced to when it expires. -/
inductive Event where
  | inboundBuilt (gateway expires : Nat)
  | outboundBuilt (id : Nat)
  | inboundExpiring (gateway : Nat)
  | outboundExpiring (id : Nat)
  | inboundExpired (gateway : Nat)
  | outboundExpired (id : Nat)
  | shutDown
deriving Repr, DecidableEq

/-- What a timer is for: `TunnelTimerEvent`, `tunnel/pool/timer.rs` 77-89. -/
inductive Timer where
  | rebuildIn (gateway : Nat)
  | rebuildOut (id : Nat)
  | destroy (id : Nat)
deriving Repr, DecidableEq

/-- An inbound tunnel: its id, the id at its gateway and when its task ends (`tunnel/hop/inbound.rs` 282-287). -/
structure Inbound where
  id : Nat
  gateway : Nat
  ends : Nat
deriving Repr, DecidableEq

/-- A test that is under way: the tunnels and when it was started, `tunnel/pool/mod.rs` 811-820. -/
structure Test where
  out : Nat
  inn : Nat
  started : Nat
deriving Repr, DecidableEq

/-- `TunnelPool`, `tunnel/pool/mod.rs` 172-235. `table` are the ids the pool put into the routing table, `selOut` and `selIn` the tunnels in its selector, `failed` is the
counter of `poll` (850), `clock` the time of the last poll, `log` all events with whether the owner's queue
took them and `got` what the owner has read. -/
structure State where
  numIn : Nat
  numOut : Nat
  clock : Nat := 0
  outbound : List Nat := []
  inbound : List Inbound := []
  gateways : AMap Nat Nat := []
  expiringIn : List Nat := []
  expiringOut : List Nat := []
  pendingIn : List Nat := []
  pendingOut : List Nat := []
  timers : List (Nat × Timer) := []
  tests : List Test := []
  lastTest : Nat := 0
  table : List Nat := []
  selOut : List Nat := []
  selIn : List Nat := []
  maintenance : Nat := 0
  failed : Nat := 0
  queue : Chan Event := { cap := 64 }
  log : List (Event × Bool) := []
  got : List Event := []
  running : Bool := true
deriving Repr, DecidableEq

/-- Insertion into a set. Standard or external library, not in /repo. -/
def ins (x : Nat) (l : List Nat) : List Nat := if x ∈ l then l else x :: l
/-- Removal from a set. Standard or external library, not in /repo. -/
def del (x : Nat) (l : List Nat) : List Nat := l.filter (· ≠ x)

/-- `try_send` to the owner, `tunnel/pool/context.rs` 414-483. -/
def State.emit (s : State) (e : Event) : State :=
  let r := s.queue.trySend e
  { s with queue := r.1, log := s.log ++ [(e, decide (r.2 = .ok))] }

/-- The result of an outbound build, `tunnel/pool/mod.rs` 853-903. -/
def State.outResult (now : Nat) (s : State) (r : Nat × Bool) : State :=
  if r.1 ∉ s.pendingOut then s
  else
    let s := { s with pendingOut := s.pendingOut.erase r.1 }
    if r.2 then
      { s with
        selOut := ins r.1 s.selOut, outbound := ins r.1 s.outbound,
        timers := s.timers ++ [(now + rebuildTimeout, Timer.rebuildOut r.1), (now + tunnelExpiration, Timer.destroy r.1)] }.emit (.outboundBuilt r.1)
    else { s with failed := s.failed + 1 }

/-- The result of an inbound build, `tunnel/pool/mod.rs` 906-976: failure, or the id at the gateway and when the reply was handled. -/
def State.inResult (now : Nat) (s : State) (r : Nat × Option (Nat × Nat)) : State :=
  if r.1 ∉ s.pendingIn then s
  else
    let s := { s with pendingIn := s.pendingIn.erase r.1 }
    match r.2 with
    | none => { s with failed := s.failed + 1, table := del r.1 s.table }
    | some (gw, built) =>
      let s := { s with selIn := ins gw s.selIn, gateways := s.gateways.put gw r.1, timers := s.timers ++ [(now + rebuildTimeout, Timer.rebuildIn gw)] }.emit
        (.inboundBuilt gw (now + tunnelExpiration))
      { s with inbound := s.inbound ++ [(⟨r.1, gw, built + tunnelExpiration⟩ : Inbound)] }

/-- The end of an inbound tunnel, `tunnel/pool/mod.rs` 982-1010. -/
def State.expire (now : Nat) (s : State) (t : Inbound) : State :=
  if t ∉ s.inbound ∨ now < t.ends then s
  else
    { s with
      inbound := s.inbound.erase t, expiringIn := del t.gateway s.expiringIn, table := del t.id s.table, selIn := del t.gateway s.selIn,
      gateways := s.gateways.del t.gateway }.emit (.inboundExpired t.gateway)

/-- A timer, `tunnel/pool/mod.rs` 1339-1407. -/
def State.fire (now : Nat) (s : State) (x : Nat × Timer) : State :=
  if x ∉ s.timers ∨ now < x.1 then s
  else
    let s := { s with timers := s.timers.erase x }
    match x.2 with
    | .destroy id => { s with outbound := del id s.outbound, expiringOut := del id s.expiringOut, selOut := del id s.selOut }.emit (.outboundExpired id)
    | .rebuildOut id => { s with expiringOut := ins id s.expiringOut }.emit (.outboundExpiring id)
    | .rebuildIn gw => { s with expiringIn := ins gw s.expiringIn }.emit (.inboundExpiring gw)

/-- The result of a test, `tunnel/pool/mod.rs` 1292-1323 and `tunnel/pool/selector.rs` 299-373, 701-759: whether a debug assertion fails. -/
def State.testAsserts (s : State) (t : Test) : Bool := t.out ∉ s.selOut || t.inn ∉ s.selIn

/-- `calculate_outbound_build_count`, `tunnel/pool/mod.rs` 299-308. -/
def State.outCount (s : State) : Nat :=
  let most := s.numOut + s.expiringOut.length
  if s.outbound.length + s.pendingOut.length < most then most - s.outbound.length - s.pendingOut.length else 0

/-- `calculate_inbound_build_count`, `tunnel/pool/mod.rs` 311-320. -/
def State.inCount (s : State) : Nat :=
  let most := s.numIn + s.expiringIn.length
  if s.inbound.length + s.pendingIn.length < most then most - s.inbound.length - s.pendingIn.length else 0

/-- What decides about a poll: the time, the tasks that have finished, and what random choices and hash map orders give.
Not in the code: what the model takes as given, for every value of it. -/
structure Input where
  now : Nat
  outs : List (Nat × Bool) := []
  ins : List (Nat × Option (Nat × Nat)) := []
  ended : List Inbound := []
  crashed : Bool := false
  tested : List Test := []
  fired : List (Nat × Timer) := []
  shutdown : Bool := false
  outDraws : List (Option Nat) := []
  inDraws : List (Option Nat) := []
  outOrder : List Nat := []
  inOrder : List Nat := []
  sent : List Bool := []
deriving Repr

/-- The tunnels that come out of `n` attempts; an attempt without enough hops, or whose request cannot be made, gives none (344-353, 450-463, 553-566, 587-595 and 681-693). -/
def drawn (n : Nat) (draws : List (Option Nat)) : List Nat := (draws.take n).filterMap id

/-- The pairs of tunnels that are tested, `tunnel/pool/mod.rs` 715-834; `sent` tells whether the message of a pair could be sent. -/
def State.pairs (s : State) (i : Input) : List Test :=
  let outs := i.outOrder.filter fun id => id ∈ s.outbound && id ∉ s.expiringOut
  let inb := i.inOrder.filter fun gw => (s.gateways.get gw).isSome && gw ∉ s.expiringIn
  ((outs.zip inb).zip i.sent).filterMap fun x => if x.2 then some ⟨x.1.1, x.1.2, i.now⟩ else none

/-- `maintain_pool`, `tunnel/pool/mod.rs` 330-838. -/
def State.maintain (s : State) (i : Input) : State :=
  let s := { s with pendingOut := s.pendingOut ++ drawn s.outCount i.outDraws }
  let new := drawn s.inCount i.inDraws
  let s := { s with pendingIn := s.pendingIn ++ new, table := s.table ++ new }
  if i.now - s.lastTest < testInterval then s else { s with lastTest := i.now, tests := s.tests ++ s.pairs i }

/-- The first part of `poll` (853-1011): results of builds and ended inbound tunnels. -/
def State.results (s : State) (i : Input) : State :=
  let s := { s with clock := i.now, failed := 0 }
  let s := i.outs.foldl (State.outResult i.now) s
  let s := i.ins.foldl (State.inResult i.now) s
  i.ended.foldl (State.expire i.now) s

/-- How a poll ends. Not in the code: the effects that can be observed. -/
inductive Outcome where
  | pending
  | ready
  | panic
deriving Repr, DecidableEq

/-- The last part of `poll` (1416-1464). -/
def State.finish (s : State) (i : Input) : State × Outcome :=
  if i.shutdown then
    let s := { s with table := s.table.filter fun id => decide (id ∉ List.map Prod.snd s.gateways) }.emit .shutDown
    ({ s with running := false }, .ready)
  else if s.maintenance ≤ i.now then ({ s with maintenance := i.now + maintenanceInterval }.maintain i, .pending)
  else if s.failed > 0 then (s.maintain i, .pending)
  else (s, .pending)

/-- `poll`, `tunnel/pool/mod.rs` 844-1465. When the task of an inbound tunnel has panicked its join set yields nothing (`emissary-util/src/runtime/tokio.rs` 266) and the poll is ready (981). -/
def State.poll (chk : Bool) (s : State) (i : Input) : State × Outcome :=
  if !s.running then (s, .ready)
  else
    let s := s.results i
    if i.crashed then ({ s with running := false }, .ready)
    else
      let done := i.tested.filter (· ∈ s.tests)
      let s' := { s with tests := s.tests.filter (· ∉ done) }
      if chk && done.any s.testAsserts then ({ s' with running := false }, .panic)
      else
        (i.fired.foldl (State.fire i.now) s').finish i

/-- What happens to a pool: it is polled, or its owner reads an event. Not in the code: the events that the theorems quantify over. -/
inductive Op where
  | poll (i : Input)
  | read
deriving Repr

/-- Not in the code: one event, handled by the definitions above. -/
def State.step (chk : Bool) (s : State) : Op → State
  | .poll i => (s.poll chk i).1
  | .read => { s with queue := s.queue.recv.1, got := s.got ++ s.queue.recv.2.toList }

/-- Not in the code: a fold of the steps. -/
def State.run (chk : Bool) (s : State) (ops : List Op) : State := ops.foldl (State.step chk) s

end Emissary.Pool
