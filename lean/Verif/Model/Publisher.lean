import Verif.Model.AMap
import Verif.Model.Netdb
import Verif.Model.Destination
/-!
# The publisher of a destination's lease set

`LeaseSetManager`, `emissary-core/src/destination/lease_set.rs`.

Simplifications: what the network database, the profile storage and the tunnel pool do are inputs: whether their channels take a message, what they answer.
Keys are numbers, lease sets are bytes. The messages are not encrypted or sealed: what is kept of a message is the floodfill it goes to, the key it is
sealed with, the lease set in it, the lease over which the answer comes back, and when it is sent. The hash of the destination's key and the date, to which the
distance of floodfills is measured, is an input of every turn. The order in which a hash map is walked is the order of the model's list; where the program takes an
element at random, the random number is an input. Wakers are left out.
-/
namespace Emissary.Publish
open Emissary.I2np (Duration)
open Emissary.Dest (Lease)

/-- `NUM_CLOSEST_FLOODFILLS`, line 57. -/
def numClosest : Nat := 10
/-- `TUNNEL_BUILD_WAIT_TIMEOUT`, line 60. -/
def buildWait : Duration := 30 * 1000000000
/-- `RETRY_TIMEOUT`, line 63. -/
def retryWait : Duration := 1 * 1000000000
/-- `STORAGE_VERIFICATION_START_TIMEOUT`, line 68. -/
def floodWait : Duration := 10 * 1000000000
/-- `STORAGE_VERIFICATION_TIMEOUT`, line 73. -/
def lookupWait : Duration := 2 * 1000000000
/-- `STORAGE_VERIFICATION_TOTAL_TIMEOUT`, line 78. -/
def verifyWait : Duration := 15 * 1000000000

/-- `RetryKind`, lines 80-92. -/
inductive Retry where
  | closest
  | publish
  | verify (started : Duration)
  deriving DecidableEq

/-- `PublishState`, lines 95-147. A timer is the time at which it is ready. -/
inductive Phase where
  | inactive
  | awaitingLeaseSet
  | awaitingTunnels (ready : Duration)
  | retry (kind : Retry) (ready : Duration)
  | closest
  | publish
  | flooding (ready : Duration)
  | verify (started : Duration) (timer : Option Duration)
  | poisoned
  deriving DecidableEq

/-- What is seen from outside. Not in the code: the effects that can be observed. -/
inductive Out where
  | store (at_ : Duration) (floodfill : Bytes) (key : Nat) (leaseSet : Bytes) (reply : Lease)
  | lookup (at_ : Duration) (floodfill : Bytes) (key : Nat) (reply : Lease)
  | query (router : Bytes)
  | leases (l : List Lease)
  deriving DecidableEq

/-- `LeaseSetManager`, lines 172-233. `done`: the future has finished. -/
structure State where
  now : Duration := 0
  unpublished : Bool
  key : Bytes
  num : Nat
  leaseSet : Bytes
  tunnels : AMap Nat Lease
  expiring : List Nat := []
  floodfills : AMap Bytes Nat := []
  pending : List Bytes := []
  queried : List Bytes := []
  stored : List Bytes := []
  phase : Phase
  done : Bool := false
  panicked : Bool := false
  log : List Out := []

/-- What the environment does in one turn of the loop in `poll`: whether the channel to the network database takes a request, what it has answered to the last one
(`some none`: it dropped the channel), whether the tunnel pool takes a message, a random number and the place on the ring from which distances are measured.
Not in the code: what the model takes as given, for every value of it. -/
structure Turn where
  cmd : Bool
  answer : Option (Option (List (Bytes × Nat)))
  pool : Bool
  rnd : Nat
  target : Bytes

/-- Adds to what is seen. Not in the code: a helper of the model. -/
def State.out (s : State) (o : Out) : State := { s with log := s.log ++ [o] }

/-- A phase and when it began: what a request for the closest floodfills leads to, lines 255-261 and 287-297. -/
def closestPhase (now : Duration) (cmd : Bool) : Phase := if cmd then .closest else .retry .closest (now + retryWait)

/-- `new`, lines 240-284. -/
def State.new (now : Duration) (tunnels : List Lease) (key : Bytes) (num : Nat) (unpublished : Bool) (leaseSet : Bytes) (cmd : Bool) : State :=
  { now, unpublished, key, num, leaseSet
    tunnels := AMap.puts [] (tunnels.map fun l => (l.tunnel, l))
    phase := if unpublished then .inactive else closestPhase now cmd }

/-- `get_closest_floodfills`, lines 286-298. -/
def State.getClosest (s : State) (cmd : Bool) : State := { s with phase := closestPhase s.now cmd }

/-- `register_lease_set`, lines 301-315. -/
def State.registerLeaseSet (s : State) (raw : Bytes) (cmd : Bool) : State :=
  let s := { s with leaseSet := raw }
  if s.unpublished then s
  else match s.phase with
    | .awaitingLeaseSet => s.getClosest cmd
    | _ => s

/-- `register_database_store`, lines 318-348, and its caller, `destination/mod.rs` lines 523-541. `raw` is the lease set in the message; the caller has the
code that would pass it on commented out. -/
def State.databaseStore (s : State) (key _raw : Bytes) : State :=
  if s.key ≠ key then s
  else match s.phase with
    | .verify _ _ => { s with phase := .inactive, stored := [], queried := [] }
    | _ => s

/-- Lines 366-379: the floodfills of a reply that are known. -/
def State.learn (s : State) (routers : List Bytes) (known : Bytes → Option Nat) : State :=
  { s with floodfills := s.floodfills.puts (routers.filterMap fun r => (known r).map fun k => (r, k)) }

/-- Lines 394-406: a query for the router info of one floodfill. -/
def State.ask (s : State) (accept : Bytes → Bool) (r : Bytes) : State :=
  if accept r then { s with pending := s.pending ++ [r] }.out (.query r) else s

/-- `register_database_search_reply`, lines 351-407. `known`: the static keys of the routers in the profile storage. `accept`: whether the database takes a query. -/
def State.searchReply (s : State) (key : Bytes) (routers : List Bytes) (known : Bytes → Option Nat) (accept : Bytes → Bool) : State :=
  if s.unpublished then s
  else if s.key ≠ key then s
  else (routers.filter fun r => (known r).isNone && !decide (r ∈ s.pending)).eraseDups.foldl (fun s r => s.ask accept r) (s.learn routers known)

/-- `register_inbound_tunnel`, lines 410-448. -/
def State.inbound (s : State) (l : Lease) : State :=
  let s := { s with tunnels := s.tunnels.put l.tunnel l }
  let s := if s.unpublished then s
    else if s.tunnels.length = s.num then { s with phase := .awaitingLeaseSet }
    else { s with phase := .awaitingTunnels (s.now + buildWait) }
  s.out (.leases (s.tunnels.map (·.2)))

/-- `register_expiring_inbound_tunnel`, lines 451-466. -/
def State.expire (chk : Bool) (s : State) (id : Nat) : State :=
  match s.tunnels.get id with
  | none => { s with panicked := s.panicked || chk }
  | some _ => { s with tunnels := s.tunnels.del id, expiring := if id ∈ s.expiring then s.expiring else s.expiring ++ [id] }

/-- `register_expired_inbound_tunnel`, lines 469-471. -/
def State.expired (s : State) (id : Nat) : State := { s with expiring := s.expiring.filter fun x => decide (x ≠ id) }

/-- The ids of the floodfills that are known. destination/lease_set.rs 469-471. -/
def State.ids (s : State) : List Bytes := s.floodfills.map (·.1)

/-- The floodfill that a lease set is sent to, lines 497-519. -/
def State.storeTarget (s : State) (t : Turn) : Option Bytes :=
  match Netdb.getClosest t.target (s.ids.filter fun r => !decide (r ∈ s.stored)) with
  | some f => some f
  | none => Netdb.getClosest t.target s.ids

/-- The floodfill that is asked for the lease set, lines 618-633. -/
def State.lookupTarget (s : State) (t : Turn) : Option Bytes := Netdb.getClosest t.target (s.ids.filter fun r => !decide (r ∈ s.queried))

/-- A message to a floodfill, lines 479-547 and 609-660: the floodfill, its key and the lease over which the answer comes. `none`: there is no tunnel or no floodfill. -/
def State.message (s : State) (t : Turn) (floodfill : Option Bytes) : Option (Bytes × Nat × Lease) :=
  if s.tunnels = [] then none
  else match floodfill with
    | none => none
    | some f =>
      match s.floodfills.get f, s.tunnels[t.rnd % s.tunnels.length]? with
      | some k, some l => some (f, k, l.2)
      | _, _ => none

/-- Lines 746-771: the closest floodfills are known. -/
def State.gotClosest (s : State) (t : Turn) (l : List (Bytes × Nat)) : State :=
  let s := { s with floodfills := s.floodfills.puts l }
  let near := Netdb.getNClosest t.target s.ids numClosest
  let s := { s with floodfills := s.floodfills.keep fun r _ => decide (r ∈ near) }
  { s with phase := if s.floodfills = [] then .retry .closest (s.now + retryWait) else .publish }

/-- `HashSet::insert`. Standard or external library, not in /repo. -/
def ins (l : List Bytes) (r : Bytes) : List Bytes := if r ∈ l then l else l ++ [r]

/-- Lines 773-814: the lease set is sent. -/
def State.sendStore (s : State) (t : Turn) : State :=
  match s.message t (s.storeTarget t) with
  | none => { s with phase := .retry .publish (s.now + retryWait) }
  | some (f, k, l) =>
    if t.pool then { s.out (.store s.now f k s.leaseSet l) with stored := ins s.stored f, queried := ins s.queried f, phase := .flooding (s.now + floodWait) }
    else { s with phase := .retry .publish (s.now + retryWait) }

/-- Lines 841-884: a lookup is sent. -/
def State.sendLookup (s : State) (t : Turn) (started : Duration) : State :=
  match s.message t (s.lookupTarget t) with
  | none => { s with phase := .retry (.verify started) (s.now + retryWait) }
  | some (f, k, l) =>
    if t.pool then { s.out (.lookup s.now f k l) with queried := ins s.queried f, phase := .verify started (some (s.now + lookupWait)) }
    else { s with phase := .retry (.verify started) (s.now + retryWait) }

/-- What follows a retry timer, lines 727-738. -/
def State.again (s : State) (t : Turn) : Retry → State
  | .closest => s.getClosest t.cmd
  | .publish => { s with phase := .publish }
  | .verify started => { s with phase := .verify started none }

/-- One turn of the loop in `poll`, lines 713-922. The second result tells whether there is another turn. -/
def State.turn (chk : Bool) (s : State) (t : Turn) : State × Bool :=
  match s.phase with
  | .awaitingTunnels ready => if ready ≤ s.now then (s.getClosest t.cmd, true) else (s, false)
  | .retry kind ready => if ready ≤ s.now then (s.again t kind, true) else (s, false)
  | .closest => match t.answer with
    | none => (s, false)
    | some none => ({ s with phase := .poisoned, done := true }, false)
    | some (some l) => (s.gotClosest t l, true)
  | .publish => (s.sendStore t, true)
  | .flooding ready => if ready ≤ s.now then ({ s with phase := .verify s.now none }, true) else (s, false)
  | .verify started timer =>
    if verifyWait ≤ s.now - started then ({ s with queried := [], phase := .publish }, true)
    else match timer with
      | none => (s.sendLookup t started, true)
      | some ready => if ready ≤ s.now then ({ s with phase := .verify started none }, true) else (s, false)
  | .poisoned => ({ s with panicked := s.panicked || chk }, false)
  | .inactive => (s, false)
  | .awaitingLeaseSet => (s, false)

/-- The loop in `poll` for at most so many turns. The second result tells whether it has ended. Not in the code: a fold of the steps. -/
def State.turns (chk : Bool) : Nat → State → (Nat → Turn) → State × Bool
  | 0, s, _ => (s, false)
  | n + 1, s, t =>
    match s.turn chk (t 0) with
    | (s, true) => State.turns chk n s (fun i => t (i + 1))
    | (s, false) => (s, true)

/-- The most turns that `poll` makes, see `C160_poll_ends`. -/
def maxTurns : Nat := 4

/-- `poll`, lines 712-922. -/
def State.poll (chk : Bool) (s : State) (t : Nat → Turn) : State := (s.turns chk maxTurns t).1

/-- The end of `poll`, lines 924-981, for one query of a router info. `ok`: the query succeeded; `key`: the static key in the profile storage. -/
def State.result (chk : Bool) (s : State) (r : Bytes) (ok : Bool) (key : Option Nat) : State :=
  if r ∈ s.pending then
    let s := { s with pending := s.pending.filter fun x => decide (x ≠ r) }
    if ok then match key with
      | some k => { s with floodfills := s.floodfills.put r k }
      | none => { s with panicked := s.panicked || chk }
    else s
  else s

/-- What happens to the manager. Not in the code: the events that the theorems quantify over. -/
inductive Op where
  | tick (now : Duration)
  | leaseSet (raw : Bytes) (cmd : Bool)
  | store (key raw : Bytes)
  | reply (key : Bytes) (routers : List Bytes) (known : Bytes → Option Nat) (accept : Bytes → Bool)
  | built (l : Lease)
  | expiring (id : Nat)
  | expired (id : Nat)
  | poll (t : Nat → Turn)
  | result (r : Bytes) (ok : Bool) (key : Option Nat)

/-- One step. A destination whose manager has finished has ended. Not in the code: one event, handled by the definitions above. -/
def State.step (chk : Bool) (s : State) (o : Op) : State :=
  if s.done then s
  else match o with
    | .tick t => { s with now := max s.now t }
    | .leaseSet raw cmd => s.registerLeaseSet raw cmd
    | .store key raw => s.databaseStore key raw
    | .reply key routers known accept => s.searchReply key routers known accept
    | .built l => s.inbound l
    | .expiring id => s.expire chk id
    | .expired id => s.expired id
    | .poll t => s.poll chk t
    | .result r ok key => s.result chk r ok key

/-- Many steps. Not in the code: a fold of the steps. -/
def State.run (chk : Bool) (s : State) (ops : List Op) : State := ops.foldl (State.step chk) s

end Emissary.Publish
