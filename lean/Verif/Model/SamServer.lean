import Verif.Model.AMap
import Verif.Model.SamParser
/-!
# The SAM server and sessions that wait for tunnels

`SamServer`, `emissary-core/src/sam/mod.rs`, and `PendingSamSession`, `emissary-core/src/sam/pending/session.rs`.

Simplifications: destinations are identified with their ids (SHA-256 hashes). What a connection asks for is an input, and so are: whether the tunnel manager
accepts a new pool, whether the command channel of a session has room, when tasks end and how, what the address book answers. The futures of sessions are
lists of the id and the destination they were made with; `ended k` means that the `k`-th of them is done. Commands are told apart by the socket they
came with; the options of commands are left out. A `JoinSet` yields `None` exactly if one of its tasks panicked (`emissary-util/src/runtime/tokio.rs` 257-270).
Accepting connections and metrics are left out.
-/
namespace Emissary.SamServer

open Emissary.SamParser (Str Datagram)

/-- A client socket. Not in the code: a helper of the model. -/
abbrev Sock := Nat

/-- What a session is asked to do with a socket, `SamSessionCommand`. sam/session.rs 77. -/
inductive What (D : Type) where
  | connect (d : D)
  | accept
  | forward (port : Nat)
deriving DecidableEq

/-- What can be observed. `closed`: the socket is dropped and nothing is written to it.
Not in the code: the effects that can be observed. -/
inductive Out (D : Type) where
  | reply (sock : Sock) (text : Str)
  | closed (sock : Sock)
  | started (id : Str) (d : D)
  | command (id : Str) (sock : Sock) (w : What D)
  | datagram (id : Str) (d : D) (data : Bytes)
  | sent (port : Nat) (data : Bytes)
deriving DecidableEq

/-- `SamServer`, lines 158-221. `active` and `pending` are the keys of the senders and `act` and `pend` the futures of `SessionContext`, lines 77-83. -/
structure State (D : Type) where
  running : Bool
  dests : List D
  active : List Str
  pending : List Str
  idDest : AMap Str D
  pend : List (Str × D)
  act : List (Str × D)
  lookups : List (Str × Sock)
  writing : Option (Nat × Bytes)
  queue : List (Nat × Bytes)
  out : List (Out D)

/-- `new`, lines 260-279. -/
def State.new {D : Type} : State D :=
  { running := true, dests := [], active := [], pending := [], idDest := [], pend := [], act := [], lookups := [], writing := none, queue := [], out := [] }

/-- `address_book`, and whether debug assertions are on. sam/mod.rs 260-279. -/
structure Env (D : Type) where
  book : Bool
  chk : Bool
  parser : SamParser.Env D
  text : Bytes → Option Str

/-- `HostKind`. sam/parser.rs 163. -/
inductive Host (D : Type) where
  | dest (d : D)
  | b32 (d : D)
  | name

/-- What the server is polled with. `room`: the channel to the session takes the command.
Not in the code: the events that the theorems quantify over. -/
inductive Op (D : Type) where
  | create (sock : Sock) (id : Str) (d : D) (pool : Bool)
  | connect (sock : Sock) (id : Str) (h : Host D) (room : Bool)
  | accept (sock : Sock) (id : Str) (room : Bool)
  | forward (sock : Sock) (id : Str) (port : Nat) (room : Bool)
  | refused
  | built (k : Nat)
  | failed (k : Nat)
  | ended (k : Nat)
  | resolved (k : Nat) (r : Option D) (room : Bool)
  | crashed
  | recv (b : Bytes) (room : Bool)
  | inbound (port : Nat) (data : Bytes)
  | write (r : Option Bool)

variable {D : Type} [DecidableEq D]

/-- `HashSet::insert`. Standard or external library, not in /repo. -/
def ins {α : Type} [DecidableEq α] (a : α) (l : List α) : List α := if a ∈ l then l else a :: l

/-- `HashSet::remove`. Standard or external library, not in /repo. -/
def rem {α : Type} [DecidableEq α] (a : α) (l : List α) : List α := l.filter (· ≠ a)

/-- The server is done and all it holds is dropped. Not in the code: a helper of the model. -/
def State.stop (s : State D) : State D := { s with running := false, pend := [], act := [], lookups := [], writing := none, queue := [] }

/-- Not in the code: a helper of the model. -/
def State.log (s : State D) (o : Out D) : State D := { s with out := s.out ++ [o] }

/-- `send_command`, lines 121-131. If the command is not taken it is dropped with its socket. -/
def State.send (s : State D) (id : Str) (sock : Sock) (w : What D) (room : Bool) : State D :=
  if id ∈ s.active ∧ room = true then s.log (.command id sock w) else s.log (.closed sock)

/-- Lines 384-492. -/
def State.create (s : State D) (sock : Sock) (id : Str) (d : D) (pool : Bool) : State D :=
  if id ∈ s.active ∨ id ∈ s.pending then s.log (.reply sock "SESSION STATUS RESULT=DUPLICATE_ID".toList)
  else if d ∈ s.dests then s.log (.reply sock "SESSION STATUS RESULT=DUPLICATE_DEST".toList)
  else if pool then
    { s with pending := ins id s.pending, pend := s.pend ++ [(id, d)], dests := ins d s.dests, idDest := s.idDest.put id d }.log (.started id d)
  else s.log (.closed sock)

/-- Lines 493-567. -/
def State.connect (e : Env D) (s : State D) (sock : Sock) (id : Str) (h : Host D) (room : Bool) : State D :=
  match h with
  | .dest d => s.send id sock (.connect d) room
  | .b32 d => s.send id sock (.connect d) room
  | .name => if e.book then { s with lookups := s.lookups ++ [(id, sock)] } else if e.chk then (s.log (.closed sock)).stop else s.log (.closed sock)

/-- Lines 639-643 and 666-668. -/
def State.free (s : State D) (id : Str) : State D :=
  match s.idDest.get id with
  | some d => { s with idDest := s.idDest.del id, dests := rem d s.dests }
  | none => s

/-- Lines 622-645. -/
def State.built (e : Env D) (s : State D) (k : Nat) : State D :=
  match s.pend[k]? with
  | none => s
  | some (id, d) =>
    let s := { s with pend := s.pend.eraseIdx k }
    if id ∈ s.pending then { s with pending := rem id s.pending, active := ins id s.active, act := s.act ++ [(id, d)] }
    else if e.chk then s.stop else s.free id

/-- Lines 646-650. -/
def State.failed (s : State D) (k : Nat) : State D := { s with pend := s.pend.eraseIdx k }

/-- Lines 658-669. -/
def State.ended (s : State D) (k : Nat) : State D :=
  match s.act[k]? with
  | none => s
  | some (id, _) => { s with act := s.act.eraseIdx k, active := rem id s.active }.free id

/-- Lines 673-709. -/
def State.resolved (s : State D) (k : Nat) (r : Option D) (room : Bool) : State D :=
  match s.lookups[k]? with
  | none => s
  | some (id, sock) =>
    let s := { s with lookups := s.lookups.eraseIdx k }
    match r with
    | none => s.log (.reply sock "STREAM STATUS RESULT=I2P_ERROR\n".toList)
    | some d => s.send id sock (.connect d) room

/-- Lines 309-343. The read buffer has 4095 bytes and the rest of a datagram is lost. -/
def State.recv (e : Env D) (s : State D) (b : Bytes) (room : Bool) : State D :=
  match SamParser.datagram e.parser e.text (b.take 0xfff) with
  | .panic => s.stop
  | .err => s
  | .ok p => if p.id ∈ s.active ∧ room = true then s.log (.datagram p.id p.dest p.data) else s

/-- Lines 345-377: the next message is taken, and written to a port of `127.0.0.1`. The socket takes it, fails (`some false`) or is full. -/
def State.write (s : State D) (r : Option Bool) : State D :=
  let s := match s.writing, s.queue with
    | none, m :: q => { s with writing := some m, queue := q }
    | _, _ => s
  match s.writing, r with
  | some (port, data), some true => { s with writing := none }.log (.sent port data)
  | some _, some false => { s with writing := none }
  | _, _ => s

/-- `poll`, lines 296-712, one thing at a time. -/
def State.step (e : Env D) (s : State D) (o : Op D) : State D :=
  if s.running then
    match o with
    | .create sock id d pool => s.create sock id d pool
    | .connect sock id h room => s.connect e sock id h room
    | .accept sock id room => s.send id sock .accept room
    | .forward sock id port room => s.send id sock (.forward port) room
    | .refused => s
    | .built k => s.built e k
    | .failed k => s.failed k
    | .ended k => s.ended k
    | .resolved k r room => s.resolved k r room
    | .crashed => s.stop
    | .recv b room => s.recv e b room
    | .inbound port data => { s with queue := s.queue ++ [(port, data)] }
    | .write r => s.write r
  else s

/-- Not in the code: a fold of the steps. -/
def State.run (e : Env D) (s : State D) (ops : List (Op D)) : State D := ops.foldl (State.step e) s

/-! ## Sessions that wait for tunnels -/

/-- `TunnelPoolEvent`. tunnel/pool/handle.rs 39. -/
inductive Event (L : Type) where
  | inBuilt (t : Nat) (l : L)
  | outBuilt (t : Nat)
  | inExpired (t : Nat)
  | outExpired (t : Nat)
  | other

/-- `inbound` and `outbound` of `PendingSamSession`, lines 110-111 and 119-120. -/
structure Tunnels (L : Type) where
  inbound : AMap Nat L
  outbound : List Nat

/-- Lines 203-253. -/
def Tunnels.step {L : Type} (t : Tunnels L) : Event L → Tunnels L
  | .inBuilt n l => { t with inbound := t.inbound.put n l }
  | .outBuilt n => { t with outbound := ins n t.outbound }
  | .inExpired n => { t with inbound := t.inbound.del n }
  | .outExpired n => { t with outbound := rem n t.outbound }
  | .other => t

/-- Does the event loop check whether it is done, lines 215 and 230? -/
def Event.built {L : Type} : Event L → Bool
  | .inBuilt _ _ => true
  | .outBuilt _ => true
  | _ => false

/-- What the event loop has come to. Result of sam/pending/session.rs 215, 230. -/
inductive Waited (L : Type) where
  | waiting (t : Tunnels L)
  | ready (t : Tunnels L) (rest : List (Event L))
  | closed

/-- The event loop of `run`, lines 202-254, on the events that there are. `closed`: the handle of the pool yields `None` after them. -/
def await {L : Type} (t : Tunnels L) (evs : List (Event L)) (closed : Bool) : Waited L :=
  match evs with
  | [] => if closed then .closed else .waiting t
  | e :: es =>
    if e.built && !(t.step e).inbound.isEmpty && !(t.step e).outbound.isEmpty then .ready (t.step e) es
    else await (t.step e) es closed

end Emissary.SamServer
