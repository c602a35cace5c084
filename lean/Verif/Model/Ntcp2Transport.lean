import Verif.Model.Runtime
/-!
# `Ntcp2Transport`: the listener, the handshakes and the open connections

Models /repo/emissary-core/src/transport/ntcp2/mod.rs 76-145 and 208-350 over the task sets of `Verif.Model.Runtime`. Sessions are the
numbers of their handshakes. Metrics and the waker of `connect` and `accept` (220-222, 236-238), which those of the task sets
make unnecessary, are left out; so are the addresses that the listener turns away (`Verif.Model.Net`).
-/
namespace Emissary.Ntcp2.Transport
open Emissary Emissary.Runtime

/-- Not in the code: a helper of the model. -/
abbrev RouterId := Bytes

/-- How a handshake ends: with a session, or with an error; `none` is an inbound one (transport/ntcp2/mod.rs 92-95). -/
inductive Outcome
  | session (inbound : Bool) (router : RouterId)
  | failed (router : Option RouterId)
deriving DecidableEq, Repr

/-- `Ntcp2Transport` (transport/ntcp2/mod.rs 76-105). `backlog` are the connections that wait at the listener, `listening` says that the listener holds a waker and
`rung` that it was called, or the one of the handshakes by this task itself, since the last poll began. `next` numbers the tasks. -/
structure Trans where
  opened : Tasks RouterId := {}
  shaking : Tasks Outcome := {}
  backlog : List Nat := []
  listening : Bool := false
  rung : Bool := false
  pending : List (RouterId × Nat) := []
  next : Nat := 0
  panicked : Bool := false
deriving Repr

/-- `TransportEvent`, or what else `poll_next` gives. transport/mod.rs 209. -/
inductive Out
  | idle
  | ended
  | established (inbound : Bool) (router : RouterId)
  | closed (router : RouterId)
  | failure (router : RouterId)
deriving DecidableEq, Repr

/-- `pending_connections.insert` (320). -/
def Trans.hold (t : Trans) (r : RouterId) (id : Nat) : Trans := { t with pending := (r, id) :: t.pending.filter (·.1 ≠ r) }

/-- The last part of `poll_next` (300-348): the handshakes. `i` is the finished one that the set gives. -/
def Trans.pollShaking (k : Kind) (t : Trans) (i : Nat) : Trans × Out :=
  if t.shaking.running.isEmpty && t.shaking.done.isEmpty then (t, .idle)
  else
    let (s, y) := t.shaking.step k (.poll i)
    let t := { t with shaking := s }
    match y with
    | .value id (.session inb r) => (t.hold r id, .established inb r)
    | .value _ (.failed (some r)) => (t, .failure r)
    | .value _ (.failed none) => (t, .idle)
    | .ended => (t, .ended)
    | .pending => (t, .idle)
    | .quiet => (t, .idle)

/-- The middle part (285-298): one connection is taken from the listener. If the set of handshakes holds a waker, it is called by `push`,
and the task is polled again. -/
def Trans.pollListener (k : Kind) (t : Trans) : Trans :=
  match t.backlog with
  | [] => { t with listening := true }
  | _ :: q =>
    { t with backlog := q, shaking := (t.shaking.step k (.push t.next)).1, next := t.next + 1, rung := t.rung || t.shaking.waker }

/-- `poll_next` (277-349). -/
def Trans.poll (k : Kind) (t : Trans) (i j : Nat) : Trans × Out :=
  let t := { t with rung := false, opened := { t.opened with woken := false }, shaking := { t.shaking with woken := false } }
  let (o, y) := t.opened.step k (.poll i)
  let t := { t with opened := o }
  match y with
  | .value _ r => (t, .closed r)
  | .ended => (t, .ended)
  | .pending => (t.pollListener k).pollShaking k j
  | .quiet => (t.pollListener k).pollShaking k j

/-- `accept` (225-249): the session runs. `chk` is whether `debug_assert` is compiled in. -/
def Trans.accept (chk : Bool) (k : Kind) (t : Trans) (r : RouterId) : Trans :=
  match t.pending.lookup r with
  | some id => { t with pending := t.pending.filter (·.1 ≠ r), opened := (t.opened.step k (.push id)).1 }
  | none => { t with panicked := t.panicked || chk }

/-- `reject` (251-271). -/
def Trans.reject (chk : Bool) (t : Trans) (r : RouterId) : Trans :=
  match t.pending.lookup r with
  | some _ => { t with pending := t.pending.filter (·.1 ≠ r) }
  | none => { t with panicked := t.panicked || chk }

/-- `connect` (209-223). -/
def Trans.connect (k : Kind) (t : Trans) : Trans :=
  { t with shaking := (t.shaking.step k (.push t.next)).1, next := t.next + 1 }

/-- What happens around the transport: a connection arrives at the listener (whose waker is called once), a handshake or a session ends, or panics.
Not in the code: the events that the theorems quantify over. -/
inductive Around
  | arrive (c : Nat)
  | shook (id : Nat) (o : Outcome)
  | left (id : Nat) (r : RouterId)
  | shakePanics (id : Nat)
  | sessionPanics (id : Nat)

/-- Not in the code: one event, handled by the definitions above. -/
def Trans.around (k : Kind) (t : Trans) : Around → Trans
  | .arrive c => { t with backlog := t.backlog ++ [c], rung := t.rung || t.listening, listening := false }
  | .shook id o => { t with shaking := (t.shaking.step k (.finish id o)).1 }
  | .left id r => { t with opened := (t.opened.step k (.finish id r)).1 }
  | .shakePanics id => { t with shaking := (t.shaking.step k (.panic id)).1 }
  | .sessionPanics id => { t with opened := (t.opened.step k (.panic id)).1 }

/-- The task that polls the transport is to run again. Not in the code: a helper of the model. -/
def Trans.woken (t : Trans) : Bool := t.rung || t.opened.woken || t.shaking.woken

/-! ## With the manager -/

/-- A step of the transport in the hands of the manager (transport/mod.rs 797-897): every new connection is accepted or rejected before
the transport is polled again. -/
inductive Cmd
  | connect
  | around (a : Around)
  | poll (i j : Nat) (yes : Bool)

/-- transport/mod.rs 797-897. -/
def Trans.step (chk : Bool) (k : Kind) (t : Trans) : Cmd → Trans × Out
  | .connect => (t.connect k, .idle)
  | .around a => (t.around k a, .idle)
  | .poll i j yes =>
    match t.poll k i j with
    | (t, .established inb r) => (if yes then t.accept chk k r else t.reject chk r, .established inb r)
    | (t, o) => (t, o)

/-- Not in the code: a fold of the steps. -/
def Trans.run (chk : Bool) (k : Kind) (t : Trans) : List Cmd → Trans × List Out
  | [] => (t, [])
  | c :: cs =>
    let r := t.step chk k c
    let q := Trans.run chk k r.1 cs
    (q.1, r.2 :: q.2)

end Emissary.Ntcp2.Transport
