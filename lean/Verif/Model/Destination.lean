import Verif.Model.AMap
import Verif.Model.I2np
import Verif.Model.RoutingPath
/-!
# A client destination

`Destination`, `emissary-core/src/destination/mod.rs`: the lease sets of remote destinations, queries for them, and the messages that are sent to
remotes and received from them.

Simplifications: ids of destinations, routers, tunnels and keys are numbers. The session manager is outside: what `encrypt` returns for a message, the
cloves that `decrypt` finds in a message and the events it emits are inputs. The network database is outside: whether its channel takes a query and what
it answers are inputs. The tunnel pool is outside: whether its channel takes a message is an input. Random numbers are inputs. The routing path manager
is the model `RPath.Sys`. The local lease set manager is modelled in `Verif.Model.Publisher`. The backoff of five seconds between the attempts of a query
has no duration here: the attempts are inputs. The I2NP message around an encrypted message is left out except for its expiration. Wakers are left out.
-/
namespace Emissary.Dest
open Emissary.I2np (Duration)

/-- `Lease`, `primitives/lease_set.rs`: gateway router, gateway tunnel and expiration. primitives/lease_set.rs 133. -/
structure Lease where
  router : Nat
  tunnel : Nat
  expires : Duration
  deriving DecidableEq

/-- `LeaseSet2`, `primitives/lease_set.rs`: the destination in its header, the header's expiration in seconds, the first public key and the leases. The
signature has been verified by the parser. -/
structure LSet where
  dest : Nat
  expires : Nat
  key : Nat
  leases : List Lease
  deriving DecidableEq

/-- `LeaseSet2::is_expired`, `primitives/lease_set.rs` lines 442-447. -/
def LSet.expired (l : LSet) (now : Duration) : Bool :=
  decide (l.expires < now / 1000000000 % 2 ^ 32) || l.leases.all fun x => decide (x.expires < now)

/-- What the routing path manager gets of a lease set. destination/mod.rs 442-447. -/
def LSet.routes (l : LSet) : List RPath.Lease := l.leases.map fun x => (x.tunnel, x.expires)

/-- `QueryError`. error.rs 146. -/
inductive QErr where
  | timeout
  | retryFailure
  | noFloodfills
  deriving DecidableEq

/-- `LeaseSetStatus`, lines 152-166. -/
inductive Status where
  | found
  | notFound
  | pending
  deriving DecidableEq

/-- `DeliveryStyle`, lines 80-95. `Dummy` is never passed. -/
inductive Style where
  | via (d : Nat) (inbound outbound : Nat)
  | any (d : Nat)
  deriving DecidableEq

/-- `DeliveryStyle::destination_id`, lines 99-105. -/
def Style.dest : Style → Nat
  | .via d _ _ => d
  | .any d => d

/-- `DestinationContext`, lines 169-187. -/
structure Ctx where
  ls : LSet
  held : List Bytes := []
  expiring : AMap Nat Lease := []

/-- Where a query future is, lines 313-340: it has some attempts left, it waits for the database, or it has its result. -/
inductive Phase where
  | trying (left : Nat)
  | waiting
  | done (r : Except QErr LSet)

/-- A future in `query_futures`. destination/mod.rs 213, 313-340. -/
structure Fut where
  dest : Nat
  phase : Phase

/-- `DestinationEvent`, lines 110-146, those that this model emits. -/
inductive Event where
  | messages (l : List Bytes)
  | found (d : Nat)
  | notFound (d : Nat) (e : QErr)
  | terminated (d : Nat)
  deriving DecidableEq

/-- What `send_message` returns. destination/mod.rs 361-493. -/
inductive Ret where
  | ok
  | invalidState
  | session
  deriving DecidableEq

/-- What is seen from outside. `lost` is a ghost: a message was accepted and then dropped without an error.
Not in the code: the effects that can be observed. -/
inductive Out where
  | status (d : Nat) (s : Status)
  | ret (r : Ret)
  | sent (d : Nat) (msg : Bytes) (expires : Duration) (router tunnel : Nat) (outbound : Option Nat)
  | lost (d : Nat) (msg : Bytes)
  | remote (d : Nat) (key : Nat)
  | event (e : Event)
  deriving DecidableEq

/-- `Destination`, lines 190-229. -/
structure State where
  now : Duration := 0
  remotes : AMap Nat Ctx := []
  pending : List Nat := []
  futures : List Fut := []
  paths : RPath.Sys := {}
  panicked : Bool := false
  log : List Out := []

/-- Adds to what is seen. Not in the code: a helper of the model. -/
def State.out (s : State) (o : Out) : State := { s with log := s.log ++ [o] }

/-- `NUM_QUERY_RETRIES`, line 73. -/
def queryTries : Nat := 3
/-- `I2NP_MESSAGE_EXPIRATION`. -/
def msgLife : Duration := 8 * 1000000000

/-- A lease set is known and has not expired, lines 291-294. -/
def State.reachable (s : State) (d : Nat) : Bool :=
  match s.remotes.get d with
  | some c => !c.ls.expired s.now
  | none => false

/-- What `query_lease_set` returns, lines 286-343. -/
def State.status (s : State) (d : Nat) : Status :=
  if d ∈ s.pending then .pending else if s.reachable d then .found else .notFound

/-- `query_lease_set`, lines 286-343: the query that it starts. -/
def State.query (s : State) (d : Nat) : State :=
  match s.status d with
  | .notFound => { s with pending := s.pending ++ [d], futures := s.futures ++ [⟨d, .trying queryTries⟩] }
  | _ => s

/-- Lines 412-418, 433-439, 468-475: the message is given to the tunnel pool, whose channel takes it or not. -/
def State.give (s : State) (d : Nat) (msg : Bytes) (router tunnel : Nat) (outbound : Option Nat) (ok : Bool) : State :=
  if ok then s.out (.sent d msg (s.now + msgLife) router tunnel outbound) else s.out (.lost d msg)

/-- The lease of a routing path, lines 410 and 431. -/
def Ctx.lease (c : Ctx) (inbound : Nat) : Option Lease :=
  match c.ls.leases.find? (·.tunnel = inbound) with
  | some l => some l
  | none => c.expiring.get inbound

/-- Lines 402-487: how a message goes out to a remote whose lease set has not expired. -/
def State.deliver (chk : Bool) (s : State) (c : Ctx) (style : Style) (msg : Bytes) (rnd : Nat) (ok : Bool) : State :=
  match style with
  | .via d inbound outbound =>
    match c.lease inbound with
    | some l => s.give d msg l.router inbound (some outbound) ok
    | none => { s.out (.lost d msg) with panicked := s.panicked || chk }
  | .any d =>
    match c.ls.leases[rnd % c.ls.leases.length]? with
    | some l => s.give d msg l.router l.tunnel none ok
    | none => { s with panicked := true }

/-- Lines 379-391: the message is put on hold and a query is started. -/
def State.hold (s : State) (d : Nat) (c : Ctx) (msg : Bytes) : State :=
  { s with remotes := s.remotes.put d { c with held := c.held ++ [msg] } }.query d

/-- `send_message_inner`, lines 361-490. -/
def State.sendInner (chk : Bool) (s : State) (style : Style) (msg : Bytes) (rnd : Nat) (ok : Bool) : State × Ret :=
  match s.remotes.get style.dest with
  | none => ({ s with panicked := s.panicked || chk }, .invalidState)
  | some c => if c.ls.expired s.now then (s.hold style.dest c msg, .ok) else (s.deliver chk c style msg rnd ok, .ok)

/-- `send_message`, lines 495-504. `enc` is what the session manager returns. -/
def State.send (chk : Bool) (s : State) (style : Style) (enc : Option Bytes) (rnd : Nat) (ok : Bool) : State :=
  match enc with
  | some msg => let r := s.sendInner chk style msg rnd ok; r.1.out (.ret r.2)
  | none => s.out (.ret .session)

/-- Lines 795-804: the session manager has a message for a remote; an error is only logged. -/
def State.sessionSend (chk : Bool) (s : State) (d : Nat) (msg : Bytes) (rnd : Nat) (ok : Bool) : State := (s.sendInner chk (.any d) msg rnd ok).1

/-- A clove of a decrypted message: a lease set in a database store, a data message with its body, or something else (including a database store that does
not parse or has a router info). destination/mod.rs 795-804. -/
inductive Clove where
  | store (l : LSet)
  | data (body : Bytes)
  | other

/-- Lines 649-668: the lease set that was received replaces the one that is known. -/
def Ctx.replace (c : Ctx) (l : LSet) : Ctx :=
  { c with ls := l, expiring := c.expiring.puts (c.ls.leases.map fun x => (x.tunnel, x)) }

/-- A lease set for a remote from a clove, lines 649-668. -/
def State.learn (s : State) (l : LSet) : State :=
  { s with remotes := s.remotes.put l.dest (match s.remotes.get l.dest with | some c => c.replace l | none => { ls := l }) }

/-- Lines 614-695 for one clove: the new state and the message for the user. -/
def State.clove (chk : Bool) (s : State) : Clove → State × Option Bytes
  | .store l =>
    if l.leases = [] then (s, none)
    else ({ s with paths := s.paths.register s.now l.dest (some l.routes) }.learn l, none)
  | .data body => if body.length ≤ 4 then ({ s with panicked := s.panicked || chk }, none) else (s, some (body.drop 4))
  | .other => (s, none)

/-- Lines 614-696: all cloves, in their order. -/
def State.cloves (chk : Bool) (s : State) : List Clove → State × List Bytes
  | [] => (s, [])
  | c :: l => let x := s.clove chk c; let y := x.1.cloves chk l; (y.1, x.2.toList ++ y.2)

/-- Lines 767-778: a garlic message from a tunnel that the session manager can decrypt. -/
def State.receive (chk : Bool) (s : State) (l : List Clove) : State :=
  let x := s.cloves chk l
  if x.2 = [] then x.1 else x.1.out (.event (.messages x.2))

/-- One attempt of a query to reach the database, lines 314-326. After the last one the query fails. -/
def Fut.attempt (f : Fut) (accepted : Bool) : Fut :=
  match f.phase with
  | .trying n => if accepted then { f with phase := .waiting } else if n ≤ 1 then { f with phase := .done (.error .retryFailure) } else { f with phase := .trying (n - 1) }
  | _ => f

/-- The database answers, lines 326-330. `none`: it dropped the channel. -/
def Fut.answer (f : Fut) (r : Option (Except QErr LSet)) : Fut :=
  match f.phase with
  | .waiting => { f with phase := .done (r.getD (.error .timeout)) }
  | _ => f

/-- Something happens to the query for a destination. Not in the code: a helper of the model. -/
def State.onQuery (s : State) (d : Nat) (g : Fut → Fut) : State := { s with futures := s.futures.map fun f => if f.dest = d then g f else f }

/-- The result of a future, if it has one. Not in the code: a helper of the model. -/
def Phase.result : Phase → Option (Except QErr LSet)
  | .done r => some r
  | _ => none

/-- The result of a query for a destination, if it has one. Not in the code: a helper of the model. -/
def State.result (s : State) (d : Nat) : Option (Except QErr LSet) :=
  s.futures.findSome? fun f => if f.dest = d then f.phase.result else none

/-- Lines 848-865: what was held back is sent. `rnd` and `ok` give the random number and the answer of the tunnel pool for each message. -/
def State.flush (chk : Bool) (d : Nat) : State → Nat → (Nat → Nat) → (Nat → Bool) → List Bytes → State
  | s, _, _, _, [] => s
  | s, i, rnd, ok, m :: l => State.flush chk d (s.sendInner chk (.any d) m (rnd i) (ok i)).1 (i + 1) rnd ok l

/-- Lines 844-877: the lease set that was found is stored, and what was held back is sent. -/
def State.found (chk : Bool) (s : State) (d : Nat) (l : LSet) (rnd : Nat → Nat) (ok : Nat → Bool) : State :=
  match s.remotes.get d with
  | some c => State.flush chk d { s with remotes := s.remotes.put d { c with ls := l, held := [] } } 0 rnd ok c.held
  | none => { s with remotes := s.remotes.put d { ls := l } }

/-- Lines 811-836: a query is over. -/
def State.over (s : State) (d : Nat) (r : Except QErr LSet) : State :=
  { s with
    futures := s.futures.filter fun f => decide (f.dest ≠ d)
    pending := s.pending.filter fun x => decide (x ≠ d)
    paths := s.paths.register s.now d (match r with | .ok l => some l.routes | .error _ => none) }

/-- Lines 808-885: `poll_next` takes the result of a query. -/
def State.settle (chk : Bool) (s : State) (d : Nat) (rnd : Nat → Nat) (ok : Nat → Bool) : State :=
  match s.result d with
  | none => s
  | some (.error e) => (s.over d (.error e)).out (.event (.notFound d e))
  | some (.ok l) => (((s.over d (.ok l)).out (.remote d l.key)).found chk d l rnd ok).out (.event (.found d))

/-- Lines 887-907: one request of the routing path manager. -/
def State.serve (s : State) : State :=
  let x := s.paths.serve
  match x.1 with
  | some d => { s with paths := x.2 }.query d
  | none => { s with paths := x.2 }

/-- Lines 918-932: the prune timer. -/
def State.prune (s : State) : State :=
  { s with remotes := s.remotes.map fun x => (x.1, { x.2 with expiring := x.2.expiring.keep fun _ l => decide (l.expires > s.now) }) }

/-- `lease_set`, lines 349-351. It panics if there is none. -/
def State.leaseSet (s : State) (d : Nat) : Option LSet := (s.remotes.get d).map (·.ls)

/-- What a handle of a routing path or the tunnel pool does to the routing path manager: `RPath.Op` without the two that the destination does itself.
Not in the code: a helper of the model. -/
def pathOp : RPath.Op → Bool
  | .leases .. => false
  | .serve => false
  | _ => true

/-- What happens to a destination. Not in the code: the events that the theorems quantify over. -/
inductive Op where
  | tick (now : Duration)
  | query (d : Nat)
  | send (style : Style) (enc : Option Bytes) (rnd : Nat) (ok : Bool)
  | sessionSend (d : Nat) (msg : Bytes) (rnd : Nat) (ok : Bool)
  | sessionEnd (d : Nat)
  | receive (l : List Clove)
  | attempt (d : Nat) (accepted : Bool)
  | answer (d : Nat) (r : Option (Except QErr LSet))
  | settle (d : Nat) (rnd : Nat → Nat) (ok : Nat → Bool)
  | serve
  | path (o : RPath.Op)
  | prune

/-- One step. Not in the code: one event, handled by the definitions above. -/
def State.step (chk : Bool) (s : State) : Op → State
  | .tick t => { s with now := max s.now t }
  | .query d => (s.query d).out (.status d (s.status d))
  | .send style enc rnd ok => s.send chk style enc rnd ok
  | .sessionSend d msg rnd ok => s.sessionSend chk d msg rnd ok
  | .sessionEnd d => s.out (.event (.terminated d))
  | .receive l => s.receive chk l
  | .attempt d accepted => s.onQuery d (·.attempt accepted)
  | .answer d r => s.onQuery d (·.answer r)
  | .settle d rnd ok => s.settle chk d rnd ok
  | .serve => s.serve
  | .path o => if pathOp o then { s with paths := (RPath.step chk s.paths o).2 } else s
  | .prune => s.prune

/-- Many steps. Not in the code: a fold of the steps. -/
def State.run (chk : Bool) (s : State) (ops : List Op) : State := ops.foldl (State.step chk) s

/-- `Destination::new`, lines 236-271. -/
def State.init (now : Duration) (out : List Nat) : State := { now, paths := RPath.Sys.new out }

end Emissary.Dest
