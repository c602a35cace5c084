import Verif.Model.AMap
import Verif.Model.I2cpMessage
/-!
# An active I2CP session

`I2cpSession`, `emissary-core/src/i2cp/session.rs`, with the lease set queries of `Destination::query_lease_set`, `emissary-core/src/destination/mod.rs` 286-343, 808-834
and 891.

Simplifications: destinations are identified with their ids (SHA-256 hashes). Whether the destination has a lease set that has not expired, and what the serialized destination
in it is, is an input of each message (`cached`), and so are the results of queries and lookups, the clock and the messages that arrive. What the destination does
with a message that it is given (`sent`), or with a lease set (`published`), is not part of this model. Wakers and the socket (`I2cpSocket`) are left out: the messages for
the client are written down in the order in which they are given to the socket.
-/
namespace Emissary.I2cpSession

open Emissary.Prim (Str Lease)
open Emissary.I2cpMessage (Reply Status Request)

/-- What can be observed: messages for the client, and what is given to the destination.
Not in the code: the effects that can be observed. -/
inductive Out (D : Type) where
  | date (ms : Nat)
  | limits
  | status (sid : Nat) (k : Status)
  | reply (sid req : Nat) (k : Reply)
  | payload (sid id : Nat) (data : Bytes)
  | request (sid : Nat) (leases : List Lease)
  | sent (d : D) (data : Bytes)
  | published (leaseSet : Bytes)
deriving DecidableEq

/-- `I2cpSession`, lines 68-96. `queries` are the `pending_queries` of the destination and `key` is the private key that it decrypts with. `live` is false when the task has ended,
`crashed` if it has panicked. -/
structure State (D : Type) where
  sid : Nat
  book : Bool
  key : Bytes
  unpublished : Bool
  nextId : Nat := 0
  books : List (Nat × Nat) := []
  pending : AMap D (List Bytes) := []
  lookups : AMap D (Nat × Nat) := []
  queries : List D := []
  live : Bool := true
  crashed : Bool := false
  out : List (Out D)

/-- The option that says whether the lease set is kept to oneself, lines 136-139: `parse::<bool>` takes `true` and `false` only. -/
def dontPublish (o : Option Str) : Bool :=
  match o with
  | none => true
  | some v => if v = Datagram.ascii "false" then false else true

/-- `new`, lines 100-155. `none`: there is no private key and the code panics (line 130). -/
def State.new {D : Type} (sid : Nat) (book : Bool) (keys : List Bytes) (option : Option Str) (leaseSet : Bytes) : Option (State D) :=
  match keys with
  | [] => none
  | k :: _ => some { sid, book, key := k, unpublished := dontPublish option, out := [.published leaseSet] }

/-- What the session is polled with: messages of the client, events of the destination, results of the address book.
Not in the code: the events that the theorems quantify over. -/
inductive Op (D : Type) where
  | getDate (now : Nat)
  | getLimits
  | destroy (sid : Nat)
  | create
  | lookup (sid req : Nat) (kind : Request) (d : D) (cached : Option Bytes)
  | leaseSet (leaseSet : Bytes) (keys : List Bytes)
  | send (d : D) (data : Bytes) (cached : Bool)
  | resolved (k : Nat) (r : Option Bytes)
  | query (d : D) (cached : Bool)
  | found (d : D) (value : Bytes)
  | notFound (d : D)
  | messages (ms : List Bytes)
  | requestLeaseSet (leases : List Lease)
  | other
  | poolDown
  | closed

variable {D : Type} [DecidableEq D]

/-- `LeaseSetStatus`, destination/mod.rs. destination/mod.rs 152. -/
inductive Ls where
  | found
  | notFound
  | pending
deriving DecidableEq

/-- `query_lease_set`. destination/mod.rs 286-343. -/
def State.ask (s : State D) (d : D) (cached : Bool) : Ls × State D :=
  if d ∈ s.queries then (.pending, s) else if cached then (.found, s) else (.notFound, { s with queries := d :: s.queries })

/-- Not in the code: a helper of the model. -/
def State.log (s : State D) (o : Out D) : State D := { s with out := s.out ++ [o] }

/-- Lines 222-302. For the lookup of a name `d` does not matter. -/
def State.lookup (s : State D) (sid req : Nat) (kind : Request) (d : D) (cached : Option Bytes) : State D :=
  if s.book = false then s.log (.reply sid req (.failure 1))
  else match kind with
    | .name _ => { s with books := s.books ++ [(sid, req)] }
    | .hash _ => match s.ask d cached.isSome with
      | (.found, s) => s.log (.reply sid req (.success (cached.getD [])))
      | (.notFound, s) => { s with lookups := s.lookups.put d (sid, req) }
      | (.pending, s) => s

/-- Lines 318-402. -/
def State.send (s : State D) (d : D) (data : Bytes) (cached : Bool) : State D :=
  match s.ask d cached with
  | (.found, s) => s.log (.sent d data)
  | (.notFound, s) => { s with pending := s.pending.put d [data] }
  | (.pending, s) => match s.pending.get d with
    | some ms => { s with pending := s.pending.put d (ms ++ [data]) }
    | none => s

/-- Lines 538-563. -/
def State.resolved (s : State D) (k : Nat) (r : Option Bytes) : State D :=
  match s.books[k]? with
  | none => s
  | some (sid, req) =>
    let s := { s with books := s.books.eraseIdx k }
    match r with
    | some v => s.log (.reply sid req (.success v))
    | none => s.log (.reply sid req (.failure 1))

/-- The query is over, destination/mod.rs 825 and 833. -/
def State.over (s : State D) (d : D) : State D := { s with queries := s.queries.filter (· ≠ d) }

/-- Lines 451-474 and 486-507. -/
def State.answer (s : State D) (d : D) (r : Reply) : State D :=
  match s.lookups.get d with
  | some (sid, req) => { s with lookups := s.lookups.del d }.log (.reply sid req r)
  | none => s

/-- Lines 434-475. There is a result only if there was a query. -/
def State.found (s : State D) (d : D) (value : Bytes) : State D :=
  if d ∈ s.queries then
    let s := s.over d
    match s.pending.get d with
    | some ms => ms.foldl (fun s data => s.log (.sent d data)) { s with pending := s.pending.del d }
    | none => s.answer d (.success value)
  else s

/-- Lines 476-508. -/
def State.notFound (s : State D) (d : D) : State D :=
  if d ∈ s.queries then
    let s := s.over d
    match s.pending.get d with
    | some _ => { s with pending := s.pending.del d }
    | none => s.answer d (.failure 1)
  else s

/-- `send_payload_message`, lines 158-168. -/
def State.payload (s : State D) (data : Bytes) : State D := { s with nextId := (s.nextId + 1) % 2 ^ 32 }.log (.payload s.sid s.nextId data)

/-- `on_message` and `poll`, lines 171-405 and 411-566, one thing at a time. -/
def State.step (s : State D) (o : Op D) : State D :=
  if s.live = false then s
  else match o with
    | .getDate now => s.log (.date now)
    | .getLimits => s.log .limits
    | .destroy sid => s.log (.status sid .destroyed)
    | .create => s.log (.status s.sid .refused)
    | .lookup sid req kind d cached => s.lookup sid req kind d cached
    | .leaseSet ls _ => s.log (.published ls)
    | .send d data cached => s.send d data cached
    | .resolved k r => s.resolved k r
    | .query d cached => (s.ask d cached).2
    | .found d value => s.found d value
    | .notFound d => s.notFound d
    | .messages ms => ms.foldl State.payload s
    | .requestLeaseSet leases => match I2cpMessage.mkLeaseRequest s.sid leases with
      | some _ => s.log (.request s.sid leases)
      | none => { s with live := false, crashed := true }
    | .other => s
    | .poolDown => { s with live := false }
    | .closed => { s with live := false }

/-- Not in the code: a fold of the steps. -/
def State.run (s : State D) (ops : List (Op D)) : State D := ops.foldl State.step s

end Emissary.I2cpSession
