import Verif.Model.AMap
import Verif.Model.Netdb
/-!
# The network database task (netdb/mod.rs, netdb/query.rs)

One clock in milliseconds stands for both the wall clock and the monotonic clock. Router ids and destination ids are their 32 bytes
(`RouterId::to_vec`). Messages are modelled by what they say; their bytes are the subject of the I2NP model. The router profiles are
shared with other tasks, which may change them at any time, so what they answer is given anew with every event (`Env`). Hash sets are lists without
duplicates. Metrics and log output are left out. A call of `poll` (1852-2010) is a list of events followed by `tick`; the model
allows events in any order, which includes every order the code produces.
-/
namespace Emissary.NetdbRun
open Emissary Emissary.Netdb

/-- `QueryError` (error.rs), the values the task produces. error.rs 146. -/
inductive QErr where
  | timeout
  | retryFailure
  | noFloodfills
  | noTunnel
  | malformed
deriving Repr, DecidableEq

/-- The answer given to whoever asked. Answers of netdb/handle.rs. -/
inductive Res (α : Type) where
  | ok (v : α)
  | err (e : QErr)
deriving Repr, DecidableEq

/-- A parsed `LeaseSet2` (primitives/lease_set.rs): the destination it is of, the expiration in its header and in its leases (seconds since
the epoch), and the bytes `extract_raw_lease_set` returns. Keys and lease gateways play no role here. -/
structure LSet where
  dest : Bytes
  headerExpires : Nat
  leases : List Nat
  raw : Bytes
deriving Repr, DecidableEq

/-- `LeaseSet2::is_expired` (lease_set.rs 442-447); seconds are not truncated to 32 bits here. -/
def LSet.expired (l : LSet) (now : Nat) : Bool := decide (l.headerExpires < now / 1000) || l.leases.all fun e => decide (e * 1000 < now)

/-- `LeaseSet2::expires` (lease_set.rs 450-463) in milliseconds: the first element of the set of all expirations. -/
def LSet.expires (l : LSet) : Nat := 1000 * l.leases.foldl min l.headerExpires

/-- A parsed `RouterInfo`: id of the identity, network id, time of publication (ms), the `f` capability, and the bytes
`extract_raw_router_info` returns. primitives/router_info.rs 42-63. -/
structure RInfo where
  id : Bytes
  netId : Nat
  published : Nat
  floodfill : Bool
  raw : Bytes
deriving Repr, DecidableEq

/-- `DatabaseStorePayload` (i2np/database/store.rs). -/
inductive Payload where
  | routerInfo (r : RInfo)
  | leaseSet (l : LSet)
deriving Repr, DecidableEq

/-- `ReplyType` of a store (i2np/database/store.rs). -/
inductive StoreReply where
  | none
  | tunnel (token tunnel : Nat) (router : Bytes)
  | router (token : Nat) (router : Bytes)
deriving Repr, DecidableEq

/-- `ReplyType` of a lookup (i2np/database/lookup.rs). -/
inductive LookupReply where
  | tunnel (tunnel : Nat) (router : Bytes)
  | router (router : Bytes)
deriving Repr, DecidableEq

/-- `LookupType` (i2np/database/lookup.rs). -/
inductive LookupKind where
  | normal
  | leaseSet
  | router
  | exploration
deriving Repr, DecidableEq

/-- What a message to a router says. A message inside a `TunnelGateway` message carries the tunnel.
I2np messages made in netdb/query.rs and netdb/mod.rs. -/
inductive Msg where
  | status (token : Nat) (tunnel : Option Nat)
  | storeLeaseSet (key raw : Bytes)
  | storeRouterInfo (key raw : Bytes)
  | searchReply (key : Bytes) (routers : List Bytes) (tunnel : Option Nat)
  /-- the router's own info, asking for a delivery status to itself (1586-1607) -/
  | publish (key raw : Bytes)
deriving Repr, DecidableEq

/-- `Lease` of an inbound tunnel: gateway and tunnel id. primitives/lease_set.rs 133. -/
structure Lease where
  router : Bytes
  tunnel : Nat
deriving Repr, DecidableEq

/-- What others see of the task. Not in the code: the effects that can be observed. -/
inductive Out where
  /-- the answer to a lease set query -/
  | leaseSet (tx : Nat) (r : Res LSet)
  /-- the answer to a router info query -/
  | routerInfo (tx : Nat) (r : Res Unit)
  /-- the channel of a query is dropped: who waits sees a cancellation -/
  | cancel (tx : Nat)
  /-- the answer to `get_closest_floodfills` -/
  | floodfills (tx : Nat) (l : List Bytes)
  /-- the answer to `wait_until_ready` -/
  | ready (tx : Nat)
  /-- a lookup goes to a floodfill through an outbound tunnel, the answer to come through an inbound one -/
  | lookup (floodfill key : Bytes) (kind : LookupKind) (out : Nat) (inb : Lease)
  /-- a dial is requested -/
  | connect (router : Bytes)
  /-- a message is handed to the transport -/
  | send (router : Bytes) (m : Msg)
  /-- an answer to a lookup goes through the exploratory tunnels -/
  | viaTunnel (router : Bytes) (tunnel : Nat) (m : Msg)
  /-- a router info is given to the profile storage -/
  | discover (r : RInfo)
  /-- a floodfill is charged with a timeout -/
  | charge (floodfill : Bytes)
deriving Repr, DecidableEq

/-- What the task finds outside itself while it handles one event: which router infos the profile storage holds, which routers it takes for
floodfills, whether it accepts a router info, the routing key of a key on the day, whether the exploratory pool takes the lookup of a
key, whether a dial can be requested, how many routers are known, and a random number.
Not in the code: what the model takes as given, for every value of it. -/
structure Env where
  known : Bytes → Bool
  isFloodfill : Bytes → Bool
  discover : Bool
  rkey : Bytes → Bytes
  poolOk : Bytes → Bool
  connectOk : Bytes → Bool
  numRouters : Nat
  random : Nat

/-- `HashSet::insert`. Standard or external library, not in /repo. -/
def ins (l : List Bytes) (x : Bytes) : List Bytes := if x ∈ l then l else l ++ [x]

/-! ## Tunnel selection (query.rs 45-95) -/

/-- `TunnelSelector` (query.rs 48-54). -/
structure Selector (α : Type) where
  iter : Nat := 0
  tunnels : List α := []
deriving Repr, DecidableEq

/-- `add_tunnel` (66-68). -/
def Selector.add {α : Type} (s : Selector α) (t : α) : Selector α := { s with tunnels := s.tunnels ++ [t] }

/-- `remove_tunnel` (76-78): keeps what satisfies the predicate. -/
def Selector.retain {α : Type} (s : Selector α) (f : α → Bool) : Selector α := { s with tunnels := s.tunnels.filter f }

/-- `next_tunnel` (81-94); the counter is a 64-bit number that wraps. -/
def Selector.next {α : Type} (s : Selector α) : Selector α × Option α :=
  if s.tunnels.isEmpty then (s, none)
  else ({ s with iter := (s.iter + 1) % 2 ^ 64 }, s.tunnels[s.iter % s.tunnels.length]?)

/-! ## Queries (query.rs 97-260) -/

/-- `Query` (query.rs 98-123); the key is the key in the table of active queries, `subs` are the channels of those who wait. -/
structure Query where
  pending : List Bytes := []
  queried : List Bytes
  queryable : List Bytes := []
  selected : Option Bytes
  started : Nat
  subs : List Nat
deriving Repr, DecidableEq

/-- `Query::new` (127-137). -/
def Query.new (tx : Nat) (selected : Bytes) (now : Nat) : Query := { queried := [selected], selected := some selected, started := now, subs := [tx] }

/-- `Query::handle_search_reply` (147-177): the query and the routers whose router info is to be fetched. -/
def Query.searchReply (q : Query) (known : Bytes → Bool) (routers : List Bytes) : Query × List Bytes :=
  let fresh := routers.filter fun r => decide (r ∉ q.queried)
  ({ q with selected := none,
            queryable := (fresh.filter known).foldl ins q.queryable,
            pending := (fresh.filter fun r => !known r).foldl ins q.pending },
   fresh.filter fun r => !known r)

/-- `QUERY_TOTAL_TIMEOUT` (query.rs 43). -/
def totalTimeout : Nat := 20000
/-- `QUERY_TIMEOUT` (mod.rs 82). -/
def queryTimeout : Nat := 1600

/-- `Query::handle_timeout` (180-214): the floodfill to ask next. -/
def Query.next (q : Query) (env : Env) (dht : Table) (key : Bytes) (now : Nat) : Query × Res Bytes :=
  if now - q.started ≥ totalTimeout then (q, .err .timeout)
  else
    let q := { q with pending := q.pending.filter fun r => !env.known r, queryable := (q.pending.filter env.known).foldl ins q.queryable }
    match getClosest (env.rkey key) q.queryable with
    | some f => ({ q with queryable := q.queryable.filter (· ≠ f) }, .ok f)
    | none => match (dht.closestWithIgnore (env.rkey key) 1 q.queried).head? with
      | some f => (q, .ok f)
      | none => (q, .err .noFloodfills)

/-- `QueryKind` (230-248). -/
inductive Kind where
  | leaseSet (q : Query)
  | routerInfo (q : Query)
  | exploration
  | router
deriving Repr, DecidableEq

/-- Who waits for a query. netdb/mod.rs 101-138. -/
def Kind.subs : Kind → List Nat
  | .leaseSet q => q.subs
  | .routerInfo q => q.subs
  | .exploration => []
  | .router => []

/-- `RouterState` (129-138); a pending message has its expiration or none (`MessageKind`, 101-116). -/
inductive RState where
  | connected
  | dialing (pending : List (Msg × Option Nat))
deriving Repr, DecidableEq

/-! ## The task (mod.rs 153-214) -/

/-- `NetDb`. Timers are keys with the time they are due. netdb/mod.rs 153-215. -/
structure State where
  localId : Bytes
  netId : Nat
  floodfill : Bool
  active : AMap Bytes Kind := []
  ffDht : Table
  rtDht : Option Table
  leaseSets : AMap Bytes (Bytes × Nat) := []
  routerInfos : AMap Bytes (Bytes × Nat) := []
  routers : AMap Bytes RState := []
  timers : List (Bytes × Nat) := []
  ready : List Nat := []
  outTun : Selector Nat := {}
  inTun : Selector Lease := {}
  now : Nat
  maintAt : Nat
  exploreAt : Option Nat
  log : List Out := []

/-- Constants of exploration (91-97). -/
def highRouterCount : Nat := 2500
/-- netdb/mod.rs 91-97. -/
def explorationLow : Nat := 55
/-- netdb/mod.rs 91-97. -/
def explorationHigh : Nat := 170

/-- Time until the next exploration, ms (262-272, 1993-2003). -/
def exploreDelay (env : Env) : Nat :=
  if env.numRouters ≥ highRouterCount then 1000 * ((explorationLow + env.random % explorationLow) / 2)
  else 1000 * (explorationHigh + env.random % explorationHigh)

/-- `NetDb::new` (218-298). -/
def State.init (localId : Bytes) (netId : Nat) (floodfill : Bool) (ffDht rtDht : Table) (now : Nat) (env : Env) : State :=
  { localId, netId, floodfill, ffDht,
    rtDht := if floodfill then some rtDht else none,
    now, maintAt := now + 5000,
    exploreAt := if floodfill then none else some (now + exploreDelay env) }

/-- Not in the code: a helper of the model. -/
def State.out (s : State) (o : Out) : State := { s with log := s.log ++ [o] }

/-- `send_message` (378-411) to one router. -/
def State.sendOne (s : State) (env : Env) (m : Msg) (exp : Option Nat) (r : Bytes) : State :=
  match s.routers.get r with
  | none => if env.connectOk r then { s with routers := s.routers.put r (.dialing [(m, exp)]), log := s.log ++ [.connect r] } else s
  | some (.dialing p) => { s with routers := s.routers.put r (.dialing (p ++ [(m, exp)])) }
  | some .connected => s.out (.send r m)

/-- `send_message` (378-411). -/
def State.send (s : State) (env : Env) (routers : List Bytes) (m : Msg) (exp : Option Nat) : State :=
  routers.foldl (fun s r => s.sendOne env m exp r) s

/-- `on_connection_established` (306-358). -/
def State.established (s : State) (env : Env) (r : Bytes) : State :=
  let sent := match s.routers.get r with
    | some (.dialing p) => p.filterMap fun m => match m.2 with
      | none => some (Out.send r m.1)
      | some e => if e > s.now then some (Out.send r m.1) else none
    | _ => []
  let s := { s with log := s.log ++ sent, routers := s.routers.put r .connected }
  if env.isFloodfill r then { s with ffDht := s.ffDht.addRouter r } else { s with rtDht := s.rtDht.map (fun t => Table.addRouter t r) }

/-- `on_connection_closed` (361-363) and `on_connection_failure` (366-375). -/
def State.lost (s : State) (r : Bytes) : State := { s with routers := s.routers.del r }

/-- `I2NP_MESSAGE_EXPIRATION` (i2np/mod.rs). -/
def messageExpiration : Nat := 8000

/-- The delivery status asked for by a store (491-555, 619-683); `none` when nothing was asked for. -/
def StoreReply.status (now : Nat) : StoreReply → Option (Bytes × Msg × Nat)
  | .none => Option.none
  | .tunnel token t r => some (r, .status token (some t), now + messageExpiration)
  | .router token r => some (r, .status token Option.none, now + messageExpiration)

/-- Answers a store and floods it to the three closest floodfills (491-583, 619-711). -/
def State.flood (s : State) (env : Env) (key : Bytes) (reply : StoreReply) (m : Msg) (expires : Nat) : State :=
  match reply.status s.now with
  | none => s
  | some (r, st, e) =>
    let s := s.send env [r] st (some e)
    s.send env (s.ffDht.closest (env.rkey key) 3) m (some expires)

/-- Adds a floodfill to its table. netdb/mod.rs 491-583, 619-711. -/
def State.addFloodfill (s : State) (r : RInfo) : State := if r.floodfill then { s with ffDht := s.ffDht.addRouter r.id } else s

/-- `on_router_info_store` (414-584). -/
def State.routerInfoStore (s : State) (env : Env) (key : Bytes) (reply : StoreReply) (r : RInfo) : State :=
  if r.netId ≠ s.netId then s
  else if r.id = s.localId then s
  else if r.published + 3600000 < s.now then s
  else
    let s := (s.addFloodfill r).out (.discover r)
    if !s.floodfill then s
    else State.flood { s with routerInfos := s.routerInfos.put key (r.raw, r.published), rtDht := s.rtDht.map (fun t => Table.addRouter t r.id) }
      env key reply (.storeRouterInfo key r.raw) (r.published + 3600000)

/-- `on_lease_set_store` (587-712). -/
def State.leaseSetStore (s : State) (env : Env) (key : Bytes) (reply : StoreReply) (l : LSet) : State :=
  if l.expired s.now then s
  else State.flood { s with leaseSets := s.leaseSets.put key (l.raw, l.expires) } env key reply (.storeLeaseSet key l.raw) l.expires

/-- Sends the answer to a lookup (771-815, 875-919). -/
def State.answer (s : State) (reply : LookupReply) (m : Msg) : State :=
  match reply with
  | .tunnel t r => s.out (.viaTunnel r t m)
  | .router r => s.out (.send r m)

/-- `SEARCH_REPLY_NUM_ROUTERS` (88). -/
def searchReplyRouters : Nat := 5

/-- `on_lease_set_lookup` (719-816). -/
def State.leaseSetLookup (s : State) (env : Env) (key : Bytes) (reply : LookupReply) (ignore : List Bytes) : State :=
  match s.leaseSets.get key with
  | none => s.answer reply (.searchReply key (s.ffDht.closestWithIgnore (env.rkey key) searchReplyRouters ignore) none)
  | some l => s.answer reply (.storeLeaseSet key l.1)

/-- `on_router_info_lookup` (823-920). -/
def State.routerInfoLookup (s : State) (env : Env) (key : Bytes) (reply : LookupReply) (ignore : List Bytes) : State :=
  match s.routerInfos.get key with
  | none => s.answer reply (.searchReply key (s.ffDht.closestWithIgnore (env.rkey key) searchReplyRouters ignore) none)
  | some r => s.answer reply (.storeRouterInfo key r.1)

/-- `on_router_exploration` (923-983). -/
def State.explorationLookup (s : State) (env : Env) (key : Bytes) (reply : LookupReply) (ignore : List Bytes) : State :=
  match s.rtDht with
  | none => s
  | some dht =>
    let routers := dht.closestWithIgnore (env.rkey key) searchReplyRouters ignore
    match reply with
    | .tunnel t r => s.send env [r] (.searchReply key routers (some t)) none
    | .router r => s.send env [r] (.searchReply key routers none) none

/-- The `DatabaseLookup` part of `on_message` (1312-1342). -/
def State.lookupMsg (s : State) (env : Env) (key : Bytes) (kind : LookupKind) (reply : LookupReply) (ignore : List Bytes) : State :=
  if !s.floodfill then s
  else match kind with
    | .leaseSet => s.leaseSetLookup env key reply ignore
    | .router => s.routerInfoLookup env key reply ignore
    | .exploration => s.explorationLookup env key reply ignore
    | .normal => s

/-- `Query::complete` (query.rs 222-226) of a lease set query. -/
def State.completeLs (s : State) (q : Query) (r : Res LSet) : State := { s with log := s.log ++ q.subs.map fun tx => .leaseSet tx r }

/-- `Query::complete` of a router info query. netdb/query.rs 222-226. -/
def State.completeRi (s : State) (q : Query) (r : Res Unit) : State := { s with log := s.log ++ q.subs.map fun tx => .routerInfo tx r }

/-- A query is dropped without an answer: those who wait see a cancellation. netdb/query.rs 222-226. -/
def State.drop (s : State) (k : Kind) : State := { s with log := s.log ++ k.subs.map .cancel }

/-- `self.active.insert(key, kind)`: an entry already there is dropped. netdb/mod.rs 1179, 1224, 1244, 1271, 1291, 1434, 1516, 1687, 1764, 1834. -/
def State.activate (s : State) (key : Bytes) (k : Kind) : State :=
  let s := match s.active.get key with
    | some old => s.drop old
    | none => s
  { s with active := s.active.put key k }

/-- `self.query_timers.push(..)` with `QUERY_TIMEOUT`. netdb/mod.rs 82, 1181, 1226. -/
def State.arm (s : State) (key : Bytes) : State := { s with timers := s.timers ++ [(key, s.now + queryTimeout)] }

/-- The tunnels for a lookup (query.rs 293-298, 357-362, 393-398): the outbound one is taken first. -/
def State.tunnels (s : State) : State × Option (Nat × Lease) :=
  match s.outTun.next with
  | (_, none) => (s, none)
  | (o, some out) =>
    match s.inTun.next with
    | (i, none) => ({ s with outTun := o, inTun := i }, none)
    | (i, some inb) => ({ s with outTun := o, inTun := i }, some (out, inb))

/-- Creates a lookup and gives it to the exploratory pool. netdb/mod.rs 1361-1536. -/
def State.lookup (s : State) (env : Env) (ff key : Bytes) (kind : LookupKind) : State × Res Unit :=
  match s.tunnels with
  | (s, none) => (s, .err .noTunnel)
  | (s, some (out, inb)) => if env.poolOk key then (s.out (.lookup ff key kind out inb), .ok ()) else (s, .err .retryFailure)

/-- Removes an active query. netdb/mod.rs 1004, 1153, 1971. -/
def State.take (s : State) (key : Bytes) : State := { s with active := s.active.del key }

/-- `register_lookup_success` for the sender (1063-1065, 1097-1099). -/
def State.credit (s : State) (sender : Option Bytes) : State :=
  match sender with
  | some x => { s with ffDht := s.ffDht.step (.success x) }
  | none => s

/-- A store in answer to a fetch of a router info (1027-1075). -/
def State.fetched (s : State) (sender : Option Bytes) (r : RInfo) : State :=
  if r.netId ≠ s.netId then s
  else if r.id = s.localId then s
  else
    let s := s.addFloodfill r
    State.out (State.credit { s with rtDht := s.rtDht.map (fun t => Table.addRouter t r.id) } sender) (.discover r)

/-- A store for a key after the query for it, if any, was removed (1004-1123). -/
def State.storeAt (s : State) (env : Env) (sender : Option Bytes) (key : Bytes) (p : Payload) (reply : StoreReply) (k : Option Kind) : State :=
  match k with
  | none => match p with
    | .routerInfo r => s.routerInfoStore env key reply r
    | .leaseSet l => if s.floodfill then s.leaseSetStore env key reply l else s
  | some k => match p, k with
    | .leaseSet l, .leaseSet q => s.completeLs q (.ok l)
    | .routerInfo r, .router => s.fetched sender r
    | .routerInfo r, .routerInfo q => State.completeRi (State.out (s.credit sender) (.discover r)) q (if env.discover then .ok () else .err .malformed)
    | _, k => s.drop k

/-- `on_database_store` (986-1126) of a message that parsed. -/
def State.storeMsg (s : State) (env : Env) (sender : Option Bytes) (key : Bytes) (p : Payload) (reply : StoreReply) : State :=
  (s.take key).storeAt env sender key p reply (s.active.get key)

/-- Asks the router that replied for one router info (1168-1196, 1212-1242, 1259-1289). -/
def State.fetch (s : State) (env : Env) (replier : Bytes) (r : Bytes) : State :=
  match s.lookup env replier r .router with
  | (s, .ok _) => (s.activate r .router).arm r
  | (s, .err _) => s

/-- Fetches several router infos. netdb/mod.rs 1168-1242. -/
def State.fetches (s : State) (env : Env) (replier : Bytes) (rs : List Bytes) : State := rs.foldl (fun s r => s.fetch env replier r) s

/-- A search reply for a key after the query for it, if any, was removed (1153-1299). -/
def State.searchAt (s : State) (env : Env) (key : Bytes) (routers : List Bytes) (replier : Bytes) (k : Option Kind) : State :=
  match k with
  | none => s
  | some .exploration => s.fetches env replier (routers.filter fun r => decide (r ≠ s.localId) && !env.known r)
  | some (.leaseSet q) => (s.fetches env replier (q.searchReply env.known routers).2).activate key (.leaseSet (q.searchReply env.known routers).1)
  | some (.routerInfo q) => (s.fetches env replier (q.searchReply env.known routers).2).activate key (.routerInfo (q.searchReply env.known routers).1)
  | some .router => s

/-- `register_lookup_failure` for the sender (1136-1138). -/
def State.discredit (s : State) (sender : Option Bytes) : State :=
  match sender with
  | some x => { s with ffDht := s.ffDht.step (.failure x) }
  | none => s

/-- `on_database_search_reply` (1129-1302); `none` is a message that does not parse. -/
def State.searchMsg (s : State) (env : Env) (sender : Option Bytes) (m : Option (Bytes × List Bytes × Bytes)) : State :=
  match m with
  | none => s.discredit sender
  | some (key, routers, replier) => ((s.discredit sender).take key).searchAt env key routers replier (s.active.get key)

/-- The loop of `query_lease_set` (1387-1415): the closest floodfill whose router info is known. -/
def pickFirst (env : Env) (dht : Table) (key : Bytes) : Nat → List Bytes → Option Bytes
  | 0, _ => none
  | fuel + 1, ignored => match (dht.closestWithIgnore (env.rkey key) 1 ignored).head? with
    | none => none
    | some f => if env.known f then some f else pickFirst env dht key fuel (ins ignored f)

/-- How many more floodfills a table can yield (a bound for the loops; at most 256 buckets of 20). -/
def remaining (dht : Table) (target : Bytes) (ignore : List Bytes) : Nat :=
  (((visited (distance dht.localKey target)).flatMap fun i => (dht.buckets i).closestIter target).filter fun id => !ignore.contains id).length

/-- `query_lease_set` (1361-1453). -/
def State.queryLs (s : State) (env : Env) (key : Bytes) (tx : Nat) : State :=
  match s.active.get key with
  | some (.leaseSet q) => { s with active := s.active.put key (.leaseSet { q with subs := q.subs ++ [tx] }) }
  | some _ => s.out (.cancel tx)
  | none => match pickFirst env s.ffDht key (remaining s.ffDht (env.rkey key) [] + 1) [] with
    | none => s.out (.leaseSet tx (.err .noFloodfills))
    | some f => match s.lookup env f key .leaseSet with
      | (s, .ok _) => (s.activate key (.leaseSet (.new tx f s.now))).arm key
      | (s, .err e) => s.out (.leaseSet tx (.err e))

/-- `query_router_info` (1460-1535). -/
def State.queryRi (s : State) (env : Env) (key : Bytes) (tx : Nat) : State :=
  match s.active.get key with
  | some (.routerInfo q) => { s with active := s.active.put key (.routerInfo { q with subs := q.subs ++ [tx] }) }
  | some _ => s.out (.cancel tx)
  | none => match (s.ffDht.closest (env.rkey key) 1).head? with
    | none => s.out (.routerInfo tx (.err .noFloodfills))
    | some f => match s.lookup env f key .router with
      | (s, .ok _) => (s.activate key (.routerInfo (.new tx f s.now))).arm key
      | (s, .err e) => s.out (.routerInfo tx (.err e))

/-- `get_closest_floodfills` (1538-1567). -/
def State.closestFloodfills (s : State) (env : Env) (key : Bytes) (tx : Nat) : State :=
  let l := (s.ffDht.closest (env.rkey key) 10).filter env.known
  if l.isEmpty then s.out (.cancel tx) else s.out (.floodfills tx l)

/-- `publish_router_info` (1570-1618). -/
def State.publish (s : State) (env : Env) (key raw : Bytes) : State :=
  s.send env (s.ffDht.closest (env.rkey key) 3) (.publish key raw) none

/-- `maintain_netdb` (1621-1644). -/
def State.maintain (s : State) : State := { s with leaseSets := s.leaseSets.keep fun _ l => !decide (l.2 < s.now) }

/-- `explore_routers` (1647-1699); the key is random. -/
def State.explore (s : State) (env : Env) (key : Bytes) : State :=
  match (s.ffDht.closest (env.rkey key) 1).head? with
  | none => s
  | some f => match s.lookup env f key .exploration with
    | (s, .ok _) => (s.activate key .exploration).arm key
    | (s, .err _) => s

/-- The loop of `handle_timeout` for lease sets (1709-1743). -/
def pickNext (env : Env) (dht : Table) (key : Bytes) (now : Nat) : Nat → Query → Query × Res Bytes
  | 0, q => (q, .err .noFloodfills)
  | fuel + 1, q => match q.next env dht key now with
    | (q, .err e) => (q, .err e)
    | (q, .ok f) => if env.known f then (q, .ok f) else pickNext env dht key now fuel { q with queried := ins q.queried f }

/-- A bound for the loop of `handle_timeout`: a queried router is never chosen again from the table, and every router among those found by
replies is chosen once. Not in the code: a helper of the model. -/
def pickFuel (env : Env) (dht : Table) (key : Bytes) (q : Query) : Nat :=
  remaining dht (env.rkey key) q.queried + q.queryable.length + q.pending.length + 1

/-- `register_lookup_timeout` for the selected floodfill (1705-1707, 1780-1782). -/
def State.charge (s : State) (q : Query) : State :=
  match q.selected with
  | some f => { s with ffDht := s.ffDht.step (.timeout f), log := s.log ++ [.charge f] }
  | none => s

/-- `handle_timeout` (1702-1846). -/
def State.handleTimeout (s : State) (env : Env) (key : Bytes) (k : Kind) : State :=
  match k with
  | .leaseSet q =>
    let s := s.charge q
    let q := { q with selected := none }
    match pickNext env s.ffDht key s.now (pickFuel env s.ffDht key q) q with
    | (q, .err e) => s.completeLs q (.err e)
    | (q, .ok f) => match s.lookup env f key .leaseSet with
      | (s, .ok _) => (s.activate key (.leaseSet { q with queried := ins q.queried f, selected := some f })).arm key
      | (s, .err e) => s.completeLs q (.err e)
  | .routerInfo q =>
    let s := s.charge q
    let q := { q with selected := none }
    match q.next env s.ffDht key s.now with
    | (q, .err e) => s.completeRi q (.err e)
    | (q, .ok f) => match s.lookup env f key .router with
      | (s, .ok _) => (s.activate key (.routerInfo { q with queried := ins q.queried f, selected := some f })).arm key
      | (s, .err _) => (s.activate key (.routerInfo q)).arm key
  | .exploration => s
  | .router => s

/-- A timer that is due fires (1966-1975). -/
def State.fire (s : State) (env : Env) (i : Nat) : State :=
  match s.timers[i]? with
  | none => s
  | some (key, due) =>
    if s.now < due then s
    else match s.active.get key with
      | none => { s with timers := s.timers.eraseIdx i }
      | some k => (State.take { s with timers := s.timers.eraseIdx i } key).handleTimeout env key k

/-- All timers that are due fire, the first one first (1966-1975); the order in which a join set yields several is arbitrary, which
`Op.fire` allows for. -/
def State.fireAll (env : Env) : Nat → State → State
  | 0, s => s
  | fuel + 1, s => match s.timers.findIdx? fun t => decide (t.2 ≤ s.now) with
    | none => s
    | some i => State.fireAll env fuel (s.fire env i)

/-- Maintenance when it is due (1977-1983); `NETDB_MAINTENANCE_INTERVAL` is 30 s (85). -/
def State.upkeep (s : State) : State := if s.maintAt ≤ s.now then { s.maintain with maintAt := s.now + 30000 } else s

/-- Exploration when it is due (1985-2007), with a random key. -/
def State.exploration (s : State) (env : Env) (key : Bytes) : State :=
  match s.exploreAt with
  | none => s
  | some t => if t ≤ s.now then { s.explore env key with exploreAt := some (s.now + exploreDelay env) } else s

/-- The end of `poll` (1966-2007): timers, maintenance, exploration with a random key. A timer armed now is not due now. -/
def State.tick (s : State) (env : Env) (key : Bytes) : State :=
  ((State.fireAll env s.timers.length s).upkeep).exploration env key

/-- All who wait for the task to be ready are told (1903-1905, 1919-1921). -/
def State.wake (s : State) : State := { s with log := s.log ++ s.ready.map .ready, ready := [] }

/-- What happens to the task. Not in the code: the events that the theorems quantify over. -/
inductive Op where
  /-- time passes (ms) -/
  | advance (d : Nat)
  | connected (r : Bytes)
  | closed (r : Bytes)
  | failed (r : Bytes)
  | store (sender : Option Bytes) (key : Bytes) (p : Payload) (reply : StoreReply)
  | search (sender : Option Bytes) (m : Option (Bytes × List Bytes × Bytes))
  | lookup (key : Bytes) (kind : LookupKind) (reply : LookupReply) (ignore : List Bytes)
  | outBuilt (t : Nat)
  | outExpired (t : Nat)
  | inBuilt (l : Lease)
  | inExpired (t : Nat)
  | queryLs (key : Bytes) (tx : Nat)
  | queryRi (router : Bytes) (tx : Nat)
  | closest (key : Bytes) (tx : Nat)
  | publish (router raw : Bytes)
  | waitReady (tx : Nat)
  | fire (i : Nat)
  | tick (key : Bytes)
deriving Repr, DecidableEq

/-- One event (1852-2010). -/
def State.step (s : State) (env : Env) : Op → State
  | .advance d => { s with now := s.now + d }
  | .connected r => s.established env r
  | .closed r => s.lost r
  | .failed r => s.lost r
  | .store sender key p reply => s.storeMsg env sender key p reply
  | .search sender m => s.searchMsg env sender m
  | .lookup key kind reply ignore => s.lookupMsg env key kind reply ignore
  | .outBuilt t =>
    let s := { s with outTun := s.outTun.add t }
    if s.inTun.tunnels.length > 0 then s.wake else s
  | .outExpired t => { s with outTun := s.outTun.retain fun x => decide (x ≠ t) }
  | .inBuilt l =>
    let s := { s with inTun := s.inTun.add l }
    if s.outTun.tunnels.length > 0 then s.wake else s
  | .inExpired t => { s with inTun := s.inTun.retain fun x => decide (x.tunnel ≠ t) }
  | .queryLs key tx => s.queryLs env key tx
  | .queryRi router tx => s.queryRi env router tx
  | .closest key tx => s.closestFloodfills env key tx
  | .publish router raw => s.publish env router raw
  | .waitReady tx => if s.inTun.tunnels.length > 0 ∧ s.outTun.tunnels.length > 0 then s.out (.ready tx) else { s with ready := s.ready ++ [tx] }
  | .fire i => s.fire env i
  | .tick key => s.tick env key

/-- A history: events with what the task finds outside itself at the time. Not in the code: a fold of the steps. -/
def State.run (s : State) (evs : List (Env × Op)) : State := evs.foldl (fun s e => s.step e.1 e.2) s

end Emissary.NetdbRun
