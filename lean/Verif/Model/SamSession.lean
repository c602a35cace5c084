import Verif.Model.AMap
import Verif.Model.SamParser
/-!
# A SAM session

`SamSession`, `emissary-core/src/sam/session.rs`, with the lease set queries of `Destination::query_lease_set`, `emissary-core/src/destination/mod.rs` 286-343
and 808-834.

Simplifications: destinations are identified with their ids (SHA-256 hashes). Whether the destination has a lease set that has not expired is an input of each
command (`cached`), and so are the results of queries and lookups. Streams are left to the stream manager once they are opened (`opened`); what it
reports is an input. What is made of a datagram before it is handed to the destination is a parameter (`make`), and compression does not fail. Wakers, options of
streams, listeners after their registration and the lease sets of the session are left out. A socket that is dropped is written down as `dropped`.
-/
namespace Emissary.SamSession

open Emissary.SamParser (Str Kind)

/-- A client socket. Not in the code: a helper of the model. -/
abbrev Sock := Nat

/-- What a name to look up is taken for. sam/session.rs 967, 992-1007. -/
inductive Name where
  | me
  | b32 (s : Str)
  | book
  | bad
  | panic
deriving DecidableEq

/-- Lines 967, 992-1007 and 1074-1085. -/
def classify (n : Str) : Name :=
  if n = "ME".toList then .me
  else match SamParser.find ".b32.i2p".toList n with
    | some e => match SamParser.slice n (SamParser.start n) e with
      | some x => .b32 x
      | none => .panic
    | none => match SamParser.find ".i2p".toList n with
      | none => .bad
      | some _ => .book

/-- What a session is made with. Not in the code: what the model takes as given, for every value of it. -/
structure Env (D : Type) where
  me : D
  own : Str
  kind : Kind
  book : Bool
  b32 : Str → Option D
  make : Bytes → Bytes

/-- What can be observed: lines for the client, answers on the sockets of streams, sockets that are dropped without an answer, streams that are opened,
sockets that are registered as listeners, datagrams that are handed to the destination, and destinations whose streams are ended.
Not in the code: the effects that can be observed. -/
inductive Out (D : Type) where
  | line (name text : Str)
  | answer (sock : Sock) (text : Str)
  | dropped (sock : Sock)
  | opened (d : D) (sock : Sock)
  | listens (sock : Sock)
  | datagram (d : D) (data : Bytes)
  | removed (d : D)
deriving DecidableEq

/-- `PendingSessionState`, lines 131-146. -/
inductive Wait where
  | leaseSet (sock : Sock)
  | session
deriving DecidableEq

/-- `PendingSession`, lines 168-178. -/
structure Pending where
  streams : List Wait
  datagrams : Option (List Bytes)

/-- `SamSession`, lines 191-263. `queries` are the `pending_queries` of the destination. -/
structure State (D : Type) where
  socket : Bool
  hosts : AMap D Str
  books : List Str
  pending : AMap D Pending
  queries : List D
  out : List (Out D)

/-- `new`, lines 374-398. -/
def State.new {D : Type} : State D := { socket := true, hosts := [], books := [], pending := [], queries := [], out := [] }

/-- What the session is polled with. Not in the code: the events that the theorems quantify over. -/
inductive Op (D : Type) where
  | lookup (name : Str) (cached : Option Str)
  | resolved (k : Nat) (r : Option Str)
  | connect (sock : Sock) (d : D) (cached : Bool)
  | listen (sock : Sock)
  | datagram (d : D) (data : Bytes) (cached : Bool)
  | query (d : D) (cached : Bool)
  | found (d : D) (value : Str)
  | notFound (d : D)
  | streamOpened (d : D)
  | streamRejected (d : D)
  | close

variable {D : Type} [DecidableEq D]

/-- `query_lease_set`: is there a lease set and no query? Otherwise there is a query now. destination/mod.rs 286-343. -/
def State.ask (s : State D) (d : D) (cached : Bool) : Bool × State D :=
  if d ∈ s.queries then (false, s) else if cached then (true, s) else (false, { s with queries := d :: s.queries })

/-- Not in the code: a helper of the model. -/
def State.log (s : State D) (o : Out D) : State D := { s with out := s.out ++ [o] }

/-- `send_message` if the socket is open. sam/session.rs 374-398. -/
def State.say (s : State D) (name text : Str) : State D := if s.socket then s.log (.line name text) else s

/-- Lines 976-979, 1036-1045, 785-794 and 1319. -/
def okText (name value : Str) : Str := "NAMING REPLY RESULT=OK NAME=".toList ++ name ++ " VALUE=".toList ++ value ++ "\n".toList
/-- Lines 903, 1095 and 1331. -/
def missingText (name : Str) : Str := "NAMING REPLY RESULT=KEY_NOT_FOUND NAME=".toList ++ name ++ "\n".toList
/-- Lines 1017 and 1083. -/
def invalidText (name : Str) : Str := "NAMING REPLY RESULT=INVALID_KEY NAME=".toList ++ name ++ "\n".toList

/-- `on_naming_lookup`, lines 966-1118. -/
def State.lookup (e : Env D) (s : State D) (name : Str) (cached : Option Str) : State D :=
  match classify name with
  | .me => s.say name (okText name e.own)
  | .b32 x => match e.b32 x with
    | none => s.say name (invalidText name)
    | some d => match s.ask d cached.isSome with
      | (true, s) => s.say name (okText name (cached.getD []))
      | (false, s) => { s with hosts := s.hosts.put d name }
  | .bad => s.say name (invalidText name)
  | .book => if e.book then { s with books := s.books ++ [name] } else s.say name (missingText name)
  | .panic => s

/-- Lines 1305-1346. -/
def State.resolved (s : State D) (k : Nat) (r : Option Str) : State D :=
  match s.books[k]? with
  | none => s
  | some name =>
    let s := { s with books := s.books.eraseIdx k }
    match r with
    | some v => s.say name (okText name v)
    | none => s.say name (missingText name)

/-- `pending_outbound.entry(..).or_insert(..)`. sam/session.rs 606-701. -/
def State.entry (s : State D) (d : D) : Pending := (s.pending.get d).getD ⟨[], none⟩

/-- `create_outbound_stream`, lines 405-459. -/
def State.openStream (s : State D) (d : D) (sock : Sock) : State D :=
  { s with pending := s.pending.put d { s.entry d with streams := (s.entry d).streams ++ [Wait.session] } }.log (.opened d sock)

/-- `on_stream_connect`, lines 464-529. -/
def State.connect (e : Env D) (s : State D) (sock : Sock) (d : D) (cached : Bool) : State D :=
  if e.kind ≠ .stream then s.log (.dropped sock)
  else if d = e.me then s.log (.answer sock "STREAM STATUS RESULT=CANT_REACH_PEER\n".toList)
  else match s.ask d cached with
    | (true, s) => s.openStream d sock
    | (false, s) => { s with pending := s.pending.put d { s.entry d with streams := (s.entry d).streams ++ [Wait.leaseSet sock] } }

/-- `on_stream_accept` and `on_stream_forward`, lines 536-601, up to the registration with the stream manager. -/
def State.listen (e : Env D) (s : State D) (sock : Sock) : State D :=
  if e.kind ≠ .stream then s.log (.dropped sock) else s.log (.listens sock)

/-- `on_send_datagram`, lines 606-701. -/
def State.datagram (e : Env D) (s : State D) (d : D) (data : Bytes) (cached : Bool) : State D :=
  if e.kind = .stream then s
  else match s.ask d cached with
    | (true, s) => s.log (.datagram d (e.make data))
    | (false, s) => { s with pending := s.pending.put d { s.entry d with datagrams := some (((s.entry d).datagrams.getD []) ++ [data]) } }

/-- The sockets of streams that wait for a lease set. Not in the code: a helper of the model. -/
def Pending.socks (p : Pending) : List Sock := p.streams.filterMap fun
  | .leaseSet s => some s
  | .session => none

/-- Lines 774-803 and 891-910: the client is told about the name it looked up. -/
def State.tell (s : State D) (d : D) (text : Str → Str) : State D :=
  match s.hosts.get d with
  | some name => { s with hosts := s.hosts.del d }.say name (text name)
  | none => s

/-- The query for a destination is over and what waited for it is taken out, lines 721-723, 824-826 and `Destination::poll`, lines 825 and 833. -/
def State.take (s : State D) (d : D) : State D := { s with queries := s.queries.filter (· ≠ d), pending := s.pending.del d }

/-- Lines 721-764. -/
def State.serve (e : Env D) (s : State D) (d : D) : State D :=
  ((s.entry d).datagrams.getD []).foldl (fun s data => s.log (.datagram d (e.make data)))
    ((s.entry d).socks.foldl (fun s sock => s.openStream d sock) (s.take d))

/-- Lines 824-880. -/
def State.refuse (s : State D) (d : D) : State D :=
  (s.entry d).socks.foldl (fun s sock => s.log (.answer sock "STREAM STATUS RESULT=CANT_REACH_PEER".toList))
    (((s.entry d).streams.filter (· = .session)).foldl (fun s _ => s.log (.removed d)) (s.take d))

/-- `on_lease_set_found`, lines 713-804. There is a result only if there was a query. -/
def State.found (e : Env D) (s : State D) (d : D) (value : Str) : State D :=
  if d ∈ s.queries then (s.serve e d).tell d (fun n => okText n value) else s

/-- `on_lease_set_not_found`, lines 815-911. There is a result only if there was a query. -/
def State.notFound (s : State D) (d : D) : State D :=
  if d ∈ s.queries then (s.refuse d).tell d missingText else s

/-- Lines 1213-1224. -/
def State.forget (s : State D) (d : D) : State D :=
  (s.entry d).socks.foldl (fun s sock => s.log (.dropped sock)) { s with pending := s.pending.del d }

/-- `poll`, lines 1124-1350, one thing at a time. -/
def State.step (e : Env D) (s : State D) : Op D → State D
  | .lookup name cached => if s.socket then s.lookup e name cached else s
  | .resolved k r => s.resolved k r
  | .connect sock d cached => s.connect e sock d cached
  | .listen sock => s.listen e sock
  | .datagram d data cached => s.datagram e d data cached
  | .query d cached => (s.ask d cached).2
  | .found d value => s.found e d value
  | .notFound d => s.notFound d
  | .streamOpened d => s.forget d
  | .streamRejected d => s.forget d
  | .close => { s with socket := false }

/-- Not in the code: a fold of the steps. -/
def State.run (e : Env D) (s : State D) (ops : List (Op D)) : State D := ops.foldl (State.step e) s

end Emissary.SamSession
