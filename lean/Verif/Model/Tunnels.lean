import Verif.Model.Bytes
/-!
# Server and client tunnels of the program

Models `emissary-cli/src/tunnel/server.rs` and `emissary-cli/src/tunnel/client.rs`. Simplifications: the
SAM server is an oracle; a file grows one byte at a time and the program may be killed between two
changes; the TCP backlog of a listener is a list of connections, which are reset when the listener is
closed; copying between the two streams is one event that ends well or not.
-/
namespace Emissary.Tunnels

/-! ## Server tunnels -/

/-- A change of the file of a destination. Not in the code: a helper of the model. -/
inductive Eff where
  | create
  | byte (b : UInt8)

/-- Not in the code: a helper of the model. -/
def applyEff (f : Option Bytes) : Eff → Option Bytes
  | .create => some []
  | .byte b => some (f.getD [] ++ [b])

/-- Not in the code: a helper of the model. -/
def applyAll (f : Option Bytes) (es : List Eff) : Option Bytes := es.foldl applyEff f

/-- What a start meets: the answers of the SAM server to requests for a new destination, whether the
file can be written, and when the start is killed. Not in the code: what the model takes as given, for every value of it. -/
structure Start where
  answers : Nat → Option Bytes
  writable : Bool := true
  stop : Option Nat := none

/-- `tokio::fs::write`. Standard or external library, not in /repo. -/
def writeFile (ok : Bool) (bs : Bytes) : List Eff := if ok then .create :: bs.map .byte else []

/-- The attempts to make a destination (server.rs:124-148): `n` are left, `i` is the number of the
next. -/
def generate (s : Start) : Nat → Nat → List Eff × Option Bytes
  | 0, _ => ([], none)
  | n + 1, i => match s.answers i with
    | some key => (writeFile s.writable key, some key)
    | none => generate s n (i + 1)

/-- `load_or_create_destination` (server.rs:104-160). -/
def loadOrCreate (utf8 : Bytes → Bool) (s : Start) (file : Option Bytes) : List Eff × Option Bytes :=
  match file with
  | some bs => if utf8 bs then ([], some bs) else generate s 3 0
  | none => generate s 3 0

/-- A start: the file afterwards, and the destination of the tunnel. emissary-cli/src/tunnel/server.rs 104-160. -/
def start (utf8 : Bytes → Bool) (file : Option Bytes) (s : Start) : Option Bytes × Option Bytes :=
  match s.stop with
  | none => (applyAll file (loadOrCreate utf8 s file).1, (loadOrCreate utf8 s file).2)
  | some n => (applyAll file ((loadOrCreate utf8 s file).1.take n), none)

/-- Not in the code: a fold of the steps. -/
def starts (utf8 : Bytes → Bool) (file : Option Bytes) (ss : List Start) : Option Bytes :=
  ss.foldl (fun f s => (start utf8 f s).1) file

/-! ## Client tunnels -/

/-- A client tunnel (config.rs:132-139). -/
structure Config where
  destination : Bytes
  port : Option Nat

/-- What the task of a tunnel does (client.rs:54-72, 118-132): it waits for a connection, it serves one,
or it waits to be restarted after an error. -/
inductive Phase where
  | accepting
  | serving (conn : Nat) (backlog : List Nat)
  | sleeping

/-- What happens to the tunnel with a number. Not in the code: the events that the theorems quantify over. -/
inductive Ev where
  /-- A program connects to its port. -/
  | connect (tunnel conn : Nat)
  /-- The connection is over, well or with an error. -/
  | over (tunnel : Nat) (ok : Bool)
  /-- The fifteen seconds after an error are over. -/
  | wake (tunnel : Nat)

/-- Not in the code: the effects that can be observed. -/
inductive Out where
  /-- A stream to a destination and port is opened for the connection; that it cannot be opened is one of the
  errors it may end with. -/
  | joined (conn : Nat) (destination : Bytes) (port : Nat)
  /-- The connection is closed, or refused, without having been served. -/
  | reset (conn : Nat)

/-- One event of one tunnel (client.rs:54-72, 118-132, 136-175). -/
def Phase.step (c : Config) (p : Phase) : Ev → Phase × List Out
  | .connect _ conn => match p with
    | .accepting => (.serving conn [], [.joined conn c.destination (c.port.getD 0)])
    | .serving x q => (.serving x (q ++ [conn]), [])
    | .sleeping => (.sleeping, [.reset conn])
  | .over _ ok => match p with
    | .serving _ q => (if ok then .accepting else .sleeping, q.map .reset)
    | p => (p, [])
  | .wake _ => match p with
    | .sleeping => (.accepting, [])
    | p => (p, [])

/-- Not in the code: a helper of the model. -/
def Ev.tunnel : Ev → Nat
  | .connect t _ => t
  | .over t _ => t
  | .wake t => t

/-- All tunnels (`ClientTunnelManager::run`, client.rs:77-177). -/
abbrev State := Nat → Phase

/-- emissary-cli/src/tunnel/client.rs 77-177. -/
def step (cs : List Config) (s : State) (e : Ev) : State × List Out :=
  match cs[e.tunnel]? with
  | none => (s, [])
  | some c => (fun t => if t = e.tunnel then ((s t).step c e).1 else s t, ((s e.tunnel).step c e).2)

/-- Not in the code: a fold of the steps. -/
def run (cs : List Config) : State → List Ev → State × List Out
  | s, [] => (s, [])
  | s, e :: es => let r := step cs s e; let r' := run cs r.1 es; (r'.1, r.2 ++ r'.2)

/-- All tunnels wait for a connection. emissary-cli/src/tunnel/client.rs 77-100. -/
def initial : State := fun _ => .accepting

end Emissary.Tunnels
