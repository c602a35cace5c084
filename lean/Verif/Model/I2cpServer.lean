import Verif.Model.I2cpSession
/-!
# Pending I2CP sessions and the I2CP server

`PendingI2cpSession`, `emissary-core/src/i2cp/pending.rs`, `I2cpServer`, `emissary-core/src/i2cp/mod.rs`, and `TunnelPoolConfig::from`, `emissary-core/src/tunnel/pool/mod.rs` 136-167.

Simplifications: messages are the parsed ones (`I2cpMessage`); whether the tunnel manager accepts a new pool, when the pool is there and what its events are is an input. Hash maps keep
an order of their own: `leases` of a request is in the order of the association list. The name of the pool is left out. Sockets and wakers are left out. A `JoinSet` yields `None` exactly
if one of its tasks panicked (`emissary-util/src/runtime/tokio.rs` 257-270).
-/
namespace Emissary.I2cpServer

open Emissary.Prim (Str Lease Options parseUInt)
open Emissary.I2cpMessage (Status)

/-- `TunnelPoolConfig` without the name. tunnel/pool/mod.rs 104. -/
structure Config where
  numIn : Nat
  hopsIn : Nat
  numOut : Nat
  hopsOut : Nat
deriving DecidableEq

/-- `options.get(key).map_or(default, |value| value.parse::<usize>().unwrap_or(default))`, lines 138-152. -/
def number (o : Options) (key : String) (default : Nat) : Nat :=
  match o.get (Datagram.ascii key) with
  | none => default
  | some v => (parseUInt (2 ^ 64 - 1) v).getD default

/-- `TunnelPoolConfig::from`, tunnel/pool/mod.rs 136-167. -/
def Config.of (o : Options) : Config :=
  { numIn := number o "inbound.quantity" 3, hopsIn := number o "inbound.length" 2, numOut := number o "outbound.quantity" 3, hopsOut := number o "outbound.length" 2 }

/-- `TunnelPoolEvent`. tunnel/pool/handle.rs 39. -/
inductive Event where
  | inBuilt (t : Nat) (l : Lease)
  | outBuilt (t : Nat)
  | inExpired (t : Nat)
  | outExpired (t : Nat)
  | other

/-- `HashMap<TunnelId, Lease>` and `HashSet<TunnelId>`. i2cp/pending.rs 60-93. -/
structure Tunnels where
  inbound : AMap Nat Lease := []
  outbound : List Nat := []

/-- `inbound.values().cloned().collect()`. i2cp/pending.rs 443-672. -/
def Tunnels.leases (t : Tunnels) : List Lease := List.map (fun p : Nat × Lease => p.2) t.inbound

/-- `PendingSessionState`, pending.rs 97-175. -/
inductive Stage where
  | inactive
  | pool (o : Options)
  | tunnels (o : Options) (t : Tunnels)
  | awaiting (o : Options) (t : Tunnels)

/-- `I2cpSessionContext`, pending.rs 60-93. -/
structure Context where
  sid : Nat
  key : Bytes
  leaseSet : Bytes
  keys : List Bytes
  options : Options
  tunnels : Tunnels

/-- Messages for the client. Not in the code: the effects that can be observed. -/
inductive Out where
  | date (ms : Nat)
  | limits
  | status (sid : Nat) (k : Status)
  | request (sid : Nat) (leases : List Lease)
deriving DecidableEq

/-- How the future of the session ends. `Poll` result of i2cp/pending.rs 443-672. -/
inductive End where
  | none
  | ready (c : Context)
  | panic

/-- `PendingI2cpSession`, pending.rs 231-243. `chk`: debug assertions are on. -/
structure Pend where
  sid : Nat
  chk : Bool
  stage : Stage := .inactive
  ended : Option End := .none
  out : List Out := []

/-- What the session is polled with. Not in the code: the events that the theorems quantify over. -/
inductive Op where
  | getDate (now : Nat)
  | getLimits
  | destroy (sid : Nat)
  | create (dest : Bytes) (o : Options) (accepted : Bool)
  | leaseSet (key leaseSet : Bytes) (keys : List Bytes)
  | lookup (sid req : Nat)
  | other
  | poolBuilt
  | event (e : Event)
  | poolGone
  | closed

/-- Not in the code: a helper of the model. -/
def Pend.log (p : Pend) (o : Out) : Pend := { p with out := p.out ++ [o] }

/-- Lines 300-391. -/
def Pend.create (p : Pend) (o : Options) (accepted : Bool) : Pend :=
  match p.stage with
  | .inactive => if accepted then { p with stage := .pool o }.log (.status p.sid .created) else p
  | _ => p

/-- Lines 392-432. -/
def Pend.leaseSet (p : Pend) (key leaseSet : Bytes) (keys : List Bytes) : Pend :=
  match p.stage with
  | .awaiting o t => { p with ended := some (.ready { sid := p.sid, key, leaseSet, keys, options := o, tunnels := t }) }
  | _ => if p.chk then { p with ended := some .panic } else p

/-- Lines 520-556 and 564-600: a tunnel was built. -/
def Pend.built (p : Pend) (o : Options) (t : Tunnels) : Pend :=
  if t.inbound.length ≠ (Config.of o).numIn ∨ t.outbound.length ≠ (Config.of o).numOut then { p with stage := .tunnels o t }
  else match I2cpMessage.mkLeaseRequest p.sid t.leases with
    | none => { p with ended := some .panic }
    | some _ => { p with stage := .awaiting o t }.log (.request p.sid t.leases)

/-- Lines 493-654. While the lease set is awaited the events of the pool are not read (lines 655-658). -/
def Pend.event (p : Pend) (e : Event) : Pend :=
  match p.stage with
  | .tunnels o t => match e with
    | .inBuilt n l => p.built o { t with inbound := t.inbound.put n l }
    | .outBuilt n => p.built o { t with outbound := if n ∈ t.outbound then t.outbound else n :: t.outbound }
    | .inExpired n => { p with stage := .tunnels o { t with inbound := t.inbound.del n } }
    | .outExpired n => { p with stage := .tunnels o { t with outbound := t.outbound.filter (· ≠ n) } }
    | .other => p
  | _ => p

/-- `on_message` and `poll`, lines 263-437 and 443-672, one thing at a time. -/
def Pend.step (p : Pend) (o : Op) : Pend :=
  if p.ended.isSome then p
  else match o with
    | .getDate now => p.log (.date now)
    | .getLimits => p.log .limits
    | .destroy sid => p.log (.status sid .destroyed)
    | .create _ o accepted => p.create o accepted
    | .leaseSet key ls keys => p.leaseSet key ls keys
    | .lookup _ _ => p
    | .other => p
    | .poolBuilt => match p.stage with
      | .pool o => { p with stage := .tunnels o {} }
      | _ => p
    | .event e => p.event e
    | .poolGone => match p.stage with
      | .tunnels _ _ => { p with ended := some .none }
      | _ => p
    | .closed => { p with ended := some .none }

/-- Not in the code: a fold of the steps. -/
def Pend.run (p : Pend) (ops : List Op) : Pend := ops.foldl Pend.step p

/-! ## The server -/

variable {D : Type} [DecidableEq D]

/-- `I2cpServer`, mod.rs 65-89, and the sessions that it has started. -/
structure Server (D : Type) where
  chk : Bool
  book : Bool
  running : Bool := true
  nextId : Nat := 1
  pend : List Pend := []
  sessions : List (I2cpSession.State D) := []

/-- What can happen: a connection with its first byte (`none`: it is closed before), something in a pending session, something in a session.
Not in the code: the events that the theorems quantify over. -/
inductive Ev (D : Type) where
  | connected (byte : Option UInt8)
  | pending (k : Nat) (o : Op)
  | active (k : Nat) (o : I2cpSession.Op D)

/-- The future of the `k`-th pending session is polled by the join set, and what it ends with by the server, lines 212-227. `I2cpSession::new` is evaluated by the task of the server. -/
def Server.pending (s : Server D) (k : Nat) (p : Pend) : Server D :=
  match p.ended with
  | none => { s with pend := s.pend.set k p }
  | some .none => { s with pend := s.pend.eraseIdx k }
  | some .panic => { s with running := false, pend := [] }
  | some (.ready c) =>
    match I2cpSession.State.new c.sid s.book c.keys (c.options.get (Datagram.ascii "i2cp.dontPublishLeaseSet")) c.leaseSet with
    | none => { s with running := false, pend := [] }
    | some a => { s with pend := s.pend.eraseIdx k, sessions := s.sessions ++ [a] }

/-- `poll`, lines 136-230, and the tasks of the sessions, which go on without the server. -/
def Server.step (s : Server D) (e : Ev D) : Server D :=
  match e with
  | .connected byte =>
    if s.running ∧ byte = some 0x2a then { s with nextId := (s.nextId + 1) % 2 ^ 16, pend := s.pend ++ [{ sid := s.nextId, chk := s.chk }] }
    else s
  | .pending k o =>
    match s.pend[k]? with
    | some p => s.pending k (p.step o)
    | none => s
  | .active k o => { s with sessions := s.sessions.modify k (·.step o) }

/-- Not in the code: a fold of the steps. -/
def Server.run (s : Server D) (es : List (Ev D)) : Server D := es.foldl Server.step s

end Emissary.I2cpServer
