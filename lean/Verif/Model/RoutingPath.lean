import Verif.Model.AMap
import Verif.Model.I2np
/-!
# Routing paths

`RoutingPathManager` and `RoutingPathHandle`, `emissary-core/src/destination/routing_path.rs`. A destination has one manager. A stream or a datagram
session has a handle for the remote destination it talks to; the handle picks a local outbound tunnel and a tunnel of the remote from its leases.

Simplifications: tunnel ids and destination ids are numbers. A handle's random choice is given by a number. The channels from the manager to the
handles (128 events) and from the handles to the manager (512 commands) are queues, and what does not fit is dropped as in the code. The manager is
never dropped before its handles, so channels are never closed from its side and a oneshot sender is never dropped without an answer.
`PendingRoutingPathHandle::bind` (lines 556-582) and `handle` (264-288) both amount to `subscribe`. Times are nanoseconds since the epoch; a timer is
ready from its deadline on.
-/
namespace Emissary.RPath
open Emissary.I2np (Duration)

/-- `OUTBOUND_TUNNEL_EXPIRATION`, line 48. -/
def outMargin : Duration := 30 * 1000000000
/-- `INBOUND_TUNNEL_MIN_AGE`, line 51. -/
def inMargin : Duration := 30 * 1000000000
/-- `MAX_LEASE_SET_QUERIES`, line 54. -/
def maxQueries : Nat := 3
/-- Capacity of the event channel of a handle, lines 265 and 478. -/
def eventCap : Nat := 128
/-- Capacity of the command channel, line 248. -/
def cmdCap : Nat := 512

/-- A remote's lease: gateway tunnel id and expiration; `Lease` has the gateway router too, which the routing path does not use.
primitives/lease_set.rs 133. -/
abbrev Lease := Nat × Duration

/-- `TunnelKind`, lines 597-641. -/
inductive Kind where
  | outbound
  | expiringOut (expires : Duration)
  | failingOut (expires : Option Duration)
  | inbound (expires : Duration)
  | failingIn (expires : Duration)
  deriving DecidableEq

/-- `RoutingPathEvent`, lines 153-183. -/
inductive Event where
  | inboundBuilt (l : List Lease)
  | outBuilt (id : Nat)
  | outExpiring (id : Nat) (expires : Duration)
  | outExpired (id : Nat)

/-- `LeaseSetQueryStatus`, lines 644-667. `rid` identifies the oneshot channel. -/
inductive Query where
  | inactive (retries : Nat)
  | pending (retries : Nat) (rid : Nat)
  deriving DecidableEq

/-- `RoutingPath`, lines 120-129, without the destination. -/
structure Path where
  inbound : Nat
  outbound : Nat
  deriving DecidableEq

/-- `RoutingPathHandle`, lines 670-694. `queue` is the receiving end of the event channel. `alive` is unset when the owner drops the handle, which it
does when the handle's future has finished. `lost` is a ghost: an event for this handle was dropped because its channel was full. -/
structure Hnd where
  dest : Nat
  tunnels : AMap Nat Kind
  path : Option Path := none
  timer : Option Duration := none
  query : Query := .inactive 0
  queue : List Event := []
  alive : Bool := true
  lost : Bool := false

/-- `RoutingPathHandle::new`, lines 698-736. -/
def Hnd.new (d : Nat) (inb : List Lease) (out : List Nat) (exp : List (Nat × Duration)) : Hnd :=
  { dest := d
    tunnels := AMap.puts [] (inb.map (fun x => (x.1, Kind.inbound x.2)) ++ out.map (fun x => (x, Kind.outbound)) ++ exp.map fun x => (x.1, Kind.expiringOut x.2)) }

/-- A random element. `IteratorRandom::choose`, library. -/
def pick {α : Type} (l : List α) (r : Nat) : Option α := l[r % l.length]?

/-- `select_outbound_tunnel`, lines 744-806. -/
def selectOut (t : AMap Nat Kind) (now : Duration) (r : Nat) : Option Nat :=
  let available := t.filterMap fun x => match x.2 with
    | .outbound => some x.1
    | _ => none
  let expiring := t.filterMap fun x => match x.2 with
    | .expiringOut e => if e > now + outMargin then some x.1 else none
    | _ => none
  let failing := t.filterMap fun x => match x.2 with
    | .failingOut (some e) => if e > now + outMargin then some x.1 else none
    | .failingOut none => some x.1
    | _ => none
  if available ≠ [] then pick available r
  else if expiring ≠ [] then pick expiring r
  else pick failing r

/-- `select_inbound_tunnel`, lines 812-847: the choice. -/
def selectIn (t : AMap Nat Kind) (now : Duration) (r : Nat) : Option (Nat × Duration) :=
  let available := t.filterMap fun x => match x.2 with
    | .inbound e => if e > now + inMargin then some (x.1, e) else none
    | _ => none
  let failing := t.filterMap fun x => match x.2 with
    | .failingIn e => if e > now + inMargin then some (x.1, e) else none
    | _ => none
  if available ≠ [] then pick available r
  else pick failing r

/-- Random numbers for the two choices. Not in the code: what the model takes as given, for every value of it. -/
structure Rand where
  out : Nat
  inb : Nat

/-- `make_routing_path`, lines 898-914, with the lease set request of lines 849-890. `rid` is the id of a new oneshot channel if the command channel
has room. The last result tells that a request was sent. -/
def Hnd.make (s : Hnd) (now : Duration) (r : Rand) (rid : Option Nat) : Option Path × Hnd × Bool :=
  match selectOut s.tunnels now r.out with
  | none => (none, s, false)
  | some o =>
    match selectIn s.tunnels now r.inb with
    | some (i, e) => (some ⟨i, o⟩, { s with timer := some (e - inMargin), path := some ⟨i, o⟩ }, false)
    | none =>
      match s.query, rid with
      | .inactive n, some rid => (none, { s with query := .pending (n + 1) rid }, true)
      | _, _ => (none, s, false)

/-- `routing_path`, lines 925-930. -/
def Hnd.get (s : Hnd) (now : Duration) (r : Rand) (rid : Option Nat) : Option Path × Hnd × Bool :=
  match s.path with
  | some p => (some p, s, false)
  | none => s.make now r rid

/-- Lines 960-977: the inbound tunnel is marked. `none`: something else was there under its id. -/
def failIn (t : AMap Nat Kind) (i : Nat) : Option (AMap Nat Kind) :=
  match t.get i with
  | some (.inbound e) => some (t.put i (.failingIn e))
  | some (.failingIn e) => some (t.put i (.failingIn e))
  | _ => none

/-- Lines 979-1014: the outbound tunnel is marked. -/
def failOut (t : AMap Nat Kind) (o : Nat) : Option (AMap Nat Kind) :=
  match t.get o with
  | some .outbound => some (t.put o (.failingOut none))
  | some (.expiringOut e) => some (t.put o (.failingOut (some e)))
  | some (.failingOut e) => some (t.put o (.failingOut e))
  | _ => none

/-- `recreate_routing_path`, lines 937-1017. The first result is unset if a debug assertion fails (lines 975 and 1012); without debug assertions the
entry that was found is lost. -/
def Hnd.recreate (chk : Bool) (s : Hnd) (now : Duration) (r : Rand) (rid : Option Nat) : Option (Option Path) × Hnd × Bool :=
  match s.path with
  | none => let x := s.make now r rid; (some x.1, x.2)
  | some p =>
    let s := { s with timer := none }
    let t1 := failIn s.tunnels p.inbound
    if chk && t1.isNone then (none, { s with tunnels := s.tunnels.del p.inbound }, false)
    else
      let s := { s with tunnels := t1.getD (s.tunnels.del p.inbound) }
      let t2 := failOut s.tunnels p.outbound
      if chk && t2.isNone then (none, { s with tunnels := s.tunnels.del p.outbound }, false)
      else
        let x := Hnd.make { s with tunnels := t2.getD (s.tunnels.del p.outbound) } now r rid
        (some x.1, x.2)

/-- No path, lines 1090-1091. -/
def Hnd.drop (s : Hnd) : Hnd := { s with path := none, timer := none }

/-- The retention test of lines 1103-1116. -/
def retained (cur : Option Nat) (now : Duration) (id : Nat) : Kind → Bool
  | .inbound e => cur = some id || e > now
  | .failingIn e => cur = some id || e > now
  | _ => true

/-- One event, lines 1075-1186. -/
def Hnd.event (s : Hnd) (now : Duration) : Event → Hnd
  | .inboundBuilt l =>
    let s := match s.path with
      | some p => match s.tunnels.get p.inbound with
        | some (.failingIn _) => s.drop
        | _ => s
      | none => s
    { s with tunnels := (s.tunnels.puts (l.map fun x => (x.1, Kind.inbound x.2))).keep (retained (s.path.map (·.inbound)) now) }
  | .outBuilt id =>
    let s := match s.path with
      | some p => match s.tunnels.get p.outbound with
        | some (.expiringOut _) => s.drop
        | some (.failingOut _) => s.drop
        | _ => s
      | none => s
    { s with tunnels := s.tunnels.put id .outbound }
  | .outExpiring id e =>
    let s := { s with tunnels := s.tunnels.put id (.expiringOut e) }
    if s.path.map (·.outbound) = some id then s.drop else s
  | .outExpired id =>
    let s := { s with tunnels := s.tunnels.del id }
    if s.path.map (·.outbound) = some id then s.drop else s

/-- The answer to a query, lines 1024-1057. `none`: the handle is done, the remote is unreachable. -/
def Hnd.answer (s : Hnd) (answer : Nat → Option Bool) : Option Hnd :=
  match s.query with
  | .pending n rid =>
    match answer rid with
    | none => some s
    | some true => some { s with query := .inactive 0 }
    | some false => if n = maxQueries then none else some { s with query := .inactive n }
  | .inactive _ => some s

/-- The timer, lines 1059-1070. -/
def Hnd.tick (s : Hnd) (now : Duration) : Hnd :=
  match s.timer with
  | some t => if now ≥ t then s.drop else s
  | none => s

/-- `poll`, lines 1023-1189. The first result tells that the future has finished. -/
def Hnd.poll (s : Hnd) (now : Duration) (answer : Nat → Option Bool) : Bool × Hnd :=
  match s.answer answer with
  | none => (true, { s with alive := false })
  | some s => (false, { (s.queue.foldl (fun s e => s.event now e) (s.tick now)) with queue := [] })

/-- `RoutingPathManager`, lines 211-243, with its handles and what is in the channels. `answers` are the results that were sent over oneshot
channels. `nextRid` numbers those channels. -/
structure Sys where
  outbound : List Nat := []
  expiring : List (Nat × Duration) := []
  leases : AMap Nat (List Lease) := []
  pending : AMap Nat (List Nat) := []
  handles : List Hnd := []
  cmds : List (Nat × Nat) := []
  answers : AMap Nat Bool := []
  nextRid : Nat := 0

/-- `RoutingPathManager::new`, lines 247-261. -/
def Sys.new (out : List Nat) : Sys := { outbound := out.eraseDups }

/-- An event is sent to a handle, e.g. lines 317-324: it is dropped if the channel is full. -/
def Hnd.notify (s : Hnd) (e : Event) : Hnd :=
  if s.alive then (if s.queue.length < eventCap then { s with queue := s.queue ++ [e] } else { s with lost := true }) else s

/-- An event for every handle. destination/routing_path.rs 317-324. -/
def Sys.broadcast (s : Sys) (e : Event) : Sys := { s with handles := s.handles.map (·.notify e) }

/-- `register_outbound_tunnel_built`, lines 307-326. -/
def Sys.built (s : Sys) (id : Nat) : Sys :=
  { s with outbound := if id ∈ s.outbound then s.outbound else s.outbound ++ [id] }.broadcast (.outBuilt id)

/-- `register_outbound_tunnel_expiring`, lines 329-351. -/
def Sys.expire (s : Sys) (now : Duration) (id : Nat) : Sys :=
  { s with expiring := s.expiring ++ [(id, now + 3 * outMargin)], outbound := s.outbound.filter (· ≠ id) }.broadcast (.outExpiring id (now + 3 * outMargin))

/-- `register_outbound_tunnel_expired`, lines 354-373. -/
def Sys.expired (s : Sys) (id : Nat) : Sys :=
  { s with expiring := s.expiring.filter (·.1 ≠ id) }.broadcast (.outExpired id)

/-- Answers for a list of oneshot channels. destination/routing_path.rs 354-373. -/
def Sys.reply (s : Sys) (rids : List Nat) (ok : Bool) : Sys := { s with answers := s.answers.puts (rids.map fun r => (r, ok)) }

/-- `register_leases`, lines 391-461. `none`: the query failed. -/
def Sys.register (s : Sys) (now : Duration) (d : Nat) (r : Option (List Lease)) : Sys :=
  let waiting := s.pending.get d
  let s := { s with pending := s.pending.del d }
  match waiting, r with
  | none, none => s
  | some rids, none => s.reply rids false
  | _, some l =>
    let s := match waiting with
      | some rids => s.reply rids true
      | none => s
    { s with
      leases := s.leases.put d (((s.leases.get d).getD [] ++ l).filter fun x => x.2 > now)
      handles := s.handles.map fun h => if h.dest = d then h.notify (.inboundBuilt l) else h }

/-- `handle` and `bind`, lines 264-288 and 471-509. -/
def Sys.subscribe (s : Sys) (d : Nat) : Sys :=
  { s with handles := s.handles ++ [Hnd.new d ((s.leases.get d).getD []) s.outbound s.expiring] }

/-- `poll_next`, lines 467-534, for one lease set request. The result is the destination whose lease set is to be queried. -/
def Sys.serve (s : Sys) : Option Nat × Sys :=
  match s.cmds with
  | [] => (none, s)
  | (d, rid) :: cmds =>
    let s := { s with cmds := cmds }
    match s.pending.get d with
    | some rids => (none, { s with pending := s.pending.put d (rids ++ [rid]) })
    | none => (some d, { s with pending := s.pending.put d [rid] })

/-- The id of a new oneshot channel, if the command channel has room. Not in the code: a helper of the model. -/
def Sys.rid (s : Sys) : Option Nat := if s.cmds.length < cmdCap then some s.nextRid else none

/-- What a handle's request for a lease set does to the command channel. destination/routing_path.rs 467-534. -/
def Sys.sent (s : Sys) (d : Nat) (b : Bool) : Sys := if b then { s with cmds := s.cmds ++ [(d, s.nextRid)], nextRid := s.nextRid + 1 } else s

/-- What happens. Not in the code: the events that the theorems quantify over. -/
inductive Op where
  | subscribe (d : Nat)
  | built (id : Nat)
  | expiring (now : Duration) (id : Nat)
  | expired (id : Nat)
  | leases (now : Duration) (d : Nat) (r : Option (List Lease))
  | serve
  | poll (h : Nat) (now : Duration)
  | path (h : Nat) (now : Duration) (r : Rand)
  | recreate (h : Nat) (now : Duration) (r : Rand)
  | drop (h : Nat)

/-- What is seen. Not in the code: the effects that can be observed. -/
inductive Ret where
  | unit
  | query (d : Option Nat)
  | done (b : Bool)
  | path (p : Option Path)
  | panic
  deriving DecidableEq

/-- What `recreate` returns. Not in the code: a helper of the model. -/
def Ret.ofMade : Option (Option Path) → Ret
  | some p => .path p
  | none => .panic

/-- One step. Operations on handles that do not exist have no effect. Not in the code: one event, handled by the definitions above. -/
def step (chk : Bool) (s : Sys) : Op → Ret × Sys
  | .subscribe d => (.unit, s.subscribe d)
  | .built id => (.unit, s.built id)
  | .expiring now id => (.unit, s.expire now id)
  | .expired id => (.unit, s.expired id)
  | .leases now d r => (.unit, s.register now d r)
  | .serve => let x := s.serve; (.query x.1, x.2)
  | .poll h now => match s.handles[h]? with
    | some x => if x.alive then let y := x.poll now s.answers.get; (.done y.1, { s with handles := s.handles.set h y.2 }) else (.unit, s)
    | none => (.unit, s)
  | .path h now r => match s.handles[h]? with
    | some x => if x.alive then let y := x.get now r s.rid; (.path y.1, { s with handles := s.handles.set h y.2.1 }.sent x.dest y.2.2) else (.unit, s)
    | none => (.unit, s)
  | .recreate h now r => match s.handles[h]? with
    | some x =>
      if x.alive then
        let y := x.recreate chk now r s.rid
        (Ret.ofMade y.1, { s with handles := s.handles.set h y.2.1 }.sent x.dest y.2.2)
      else (.unit, s)
    | none => (.unit, s)
  | .drop h => match s.handles[h]? with
    | some x => (.unit, { s with handles := s.handles.set h { x with alive := false } })
    | none => (.unit, s)

/-- Many steps. Not in the code: a fold of the steps. -/
def run (chk : Bool) (s : Sys) : List Op → Sys
  | [] => s
  | o :: l => run chk (step chk s o).2 l

end Emissary.RPath
