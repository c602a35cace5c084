import Verif.Model.Net
/-!
# The runtimes: accepting connections, datagram sockets, sets of tasks

Models `/repo/emissary-util/src/runtime/tokio.rs` 164-283 and `/repo/emissary-util/src/runtime/async_std.rs` 145-375. The
libraries below (the sockets of the system, the executor) are event sources; metrics, clocks, `gzip` and the streams, which
pass calls on as they are, are left out.
-/
namespace Emissary.Runtime
open Emissary

/-- Which runtime. Not in the code: a helper of the model. -/
inductive Kind | tokio | asyncStd
deriving DecidableEq, Repr

/-! ## Accepting connections -/

/-- A connection in the backlog: the address of the peer, the address of this end, and whether `set_nodelay` (tokio.rs 173),
or `local_addr` (async_std.rs 182), succeeds for it. -/
structure Conn where
  id : Nat
  peer : Bytes
  here : Bytes
  usable : Bool := true
deriving DecidableEq, Repr

/-- Not in the code: a helper of the model. -/
inductive Incoming
  | conn (c : Conn)
  | error
deriving DecidableEq, Repr

/-- `Poll<Option<(TcpStream, SocketAddr)>>`; ports are left out. Standard or external library, not in /repo. -/
inductive Accepted
  | pending
  | ended
  | conn (id : Nat) (address : Bytes)
deriving DecidableEq, Repr

/-- `poll_accept` (tokio.rs 169-188; async_std.rs 175-200). -/
def accept (k : Kind) : List Incoming → List Incoming × Accepted
  | [] => ([], .pending)
  | .error :: q => (q, .ended)
  | .conn c :: q =>
    if c.usable then (q, .conn c.id (match k with | .tokio => c.peer | .asyncStd => c.here)) else accept k q

/-- `Ntcp2Listener::poll_next` (emissary-core/src/transport/ntcp2/listener.rs 63-81), over a runtime. `fuel` bounds the loop. -/
def listen (k : Kind) (allowLocal : Bool) : (fuel : Nat) → List Incoming → List Incoming × Net.Heard
  | 0, q => (q, .nothing)
  | fuel + 1, q =>
    match accept k q with
    | (q, .pending) => (q, .nothing)
    | (q, .ended) => (q, .ended)
    | (q, .conn id a) => if Net.turnedAway allowLocal a then listen k allowLocal fuel q else (q, .conn id)

/-! ## Datagram sockets -/

/-- Not in the code: a helper of the model. -/
abbrev Datagram := Bytes × Bytes

/-- What the socket of the system says to a datagram. Not in the code: what the model takes as given, for every value of it. -/
inductive Sys | taken | full | error
deriving DecidableEq, Repr

/-- A socket. `out` and `ins` are the two channels of `AsyncStdUdpSocket` (async_std.rs 216-218), `alive` says that its task
runs. `waiting` are the datagrams in the socket of the system, `handed` what the system took, `said` the datagrams whose
sending was reported, `read` what the router was given, `came` what arrived. -/
structure Udp where
  out : List Datagram := []
  ins : List Datagram := []
  alive : Bool := true
  waiting : List Datagram := []
  handed : List Datagram := []
  said : List Datagram := []
  read : List Datagram := []
  came : List Datagram := []
  panicked : Bool := false
deriving DecidableEq, Repr

/-- The room of `channel(2048)` of the `futures` crate with one sender: the buffer and one more. -/
def room : Nat := 2049

/-- What happens to a socket. `send` and `recv n` are calls of the router, the latter with a buffer of `n` bytes; `arrive` and `fail`
come from the network, the latter is an error while receiving; `pass` and `fetch` are steps of the task of `AsyncStdUdpSocket`.
Not in the code: the events that the theorems quantify over. -/
inductive Op
  | send (d : Datagram) (sys : Sys)
  | recv (n : Nat)
  | arrive (d : Datagram)
  | fail
  | pass (sys : Sys)
  | fetch
deriving DecidableEq, Repr

/-- What a call gives: `Pending`, `None`, or success with the number of bytes. Not in the code: the effects that can be observed. -/
inductive Result
  | quiet
  | pending
  | none
  | some (n : Nat)
deriving DecidableEq, Repr

/-- `TokioUdpSocket` (tokio.rs 197-224). -/
def Udp.tokio (s : Udp) : Op → Udp × Result
  | .send d .taken => ({ s with handed := s.handed ++ [d], said := s.said ++ [d] }, .some d.1.length)
  | .send _ .full => (s, .pending)
  | .send _ .error => (s, .none)
  | .recv n =>
    match s.waiting with
    | [] => (s, .pending)
    | d :: w => ({ s with waiting := w, read := s.read ++ [(d.1.take n, d.2)] }, .some (min n d.1.length))
  | .arrive d => ({ s with waiting := s.waiting ++ [d], came := s.came ++ [d] }, .quiet)
  | .fail => (s, .none)
  | .pass _ => (s, .quiet)
  | .fetch => (s, .quiet)

/-- `AsyncStdUdpSocket` (async_std.rs 215-320). The task stops at an error (250-257): its ends of the channels are dropped, and so
is the socket of the system. `chk` is whether `debug_assert` is compiled in. -/
def Udp.asyncStd (chk : Bool) (s : Udp) : Op → Udp × Result
  | .send d _ =>
    if s.alive then
      if s.out.length < room then ({ s with out := s.out ++ [d], said := s.said ++ [d] }, .some d.1.length)
      else ({ s with said := s.said ++ [d] }, .some d.1.length)
    else (s, .none)
  | .recv n =>
    match s.ins with
    | [] => (s, if s.alive then .pending else .none)
    | d :: q =>
      if n < d.1.length then
        if chk then ({ s with ins := q, panicked := true }, .quiet)
        else ({ s with ins := q, read := s.read ++ [(d.1.take n, d.2)] }, .some n)
      else ({ s with ins := q, read := s.read ++ [d] }, .some d.1.length)
  | .arrive d => ({ s with waiting := s.waiting ++ [d], came := s.came ++ [d] }, .quiet)
  | .fail => if s.alive then ({ s with alive := false, out := [] }, .quiet) else (s, .quiet)
  | .pass sys =>
    if s.alive then
      match s.out, sys with
      | [], _ => (s, .quiet)
      | _, .full => (s, .quiet)
      | d :: q, .taken => ({ s with out := q, handed := s.handed ++ [d] }, .quiet)
      | _ :: q, .error => ({ s with out := q }, .quiet)
    else (s, .quiet)
  | .fetch =>
    if s.alive then
      match s.waiting with
      | [] => (s, .quiet)
      | d :: w =>
        if s.ins.length < room then ({ s with waiting := w, ins := s.ins ++ [d] }, .quiet)
        else ({ s with waiting := w }, .quiet)
    else (s, .quiet)

/-- Not in the code: one event, handled by the definitions above. -/
def Udp.step (k : Kind) (chk : Bool) (s : Udp) (o : Op) : Udp × Result :=
  match k with
  | .tokio => s.tokio o
  | .asyncStd => s.asyncStd chk o

/-- Not in the code: a fold of the steps. -/
def Udp.run (k : Kind) (chk : Bool) (s : Udp) (os : List Op) : Udp := os.foldl (fun s o => (s.step k chk o).1) s

/-! ## Sets of tasks -/

/-- `TokioJoinSet` (tokio.rs 232-270) or `AsyncStdJoinSet` (async_std.rs 322-375). `running` are tasks that have not finished, `done` those that
have and were not taken; `none` is a task that panicked, in tokio. `waker` says that the set holds a waker, `inner` that the library holds one for when a
task finishes, `woken` that a waker was called since the last poll. -/
structure Tasks (α : Type) where
  running : List Nat := []
  done : List (Nat × Option α) := []
  waker : Bool := false
  inner : Bool := false
  woken : Bool := false
deriving Repr

/-- What happens to a set: the owner pushes a task or polls, a task finishes, or panics. `poll i` takes the finished task in place `i`: the
libraries choose. Not in the code: the events that the theorems quantify over. -/
inductive Event (α : Type)
  | push (id : Nat)
  | finish (id : Nat) (v : α)
  | panic (id : Nat)
  | poll (i : Nat)

/-- `Poll<Option<T>>`. Not in the code: the effects that can be observed. -/
inductive Yield (α : Type)
  | quiet
  | pending
  | ended
  | value (id : Nat) (v : α)
deriving DecidableEq

/-- A task ends: its waker, if the library has one, is called. Standard or external library, not in /repo. -/
def Tasks.ends {α : Type} (s : Tasks α) (id : Nat) (v : Option α) : Tasks α :=
  if id ∈ s.running then
    { s with running := s.running.filter (· ≠ id), done := s.done ++ [(id, v)], inner := false, woken := s.woken || s.inner }
  else s

/-- `push`: tokio takes the waker that it holds (tokio.rs 244-256), async-std keeps it (async_std.rs 352-359). `poll_next`: tokio.rs
262-271; async_std.rs 365-374, with `FuturesJoinSet` (async_std.rs 340-347). A panicked task is modelled for tokio only. -/
def Tasks.step {α : Type} (k : Kind) (s : Tasks α) : Event α → Tasks α × Yield α
  | .push id =>
    ({ s with running := s.running ++ [id], woken := s.woken || s.waker, waker := match k with | .tokio => false | .asyncStd => s.waker },
      .quiet)
  | .finish id v => (s.ends id (some v), .quiet)
  | .panic id => (s.ends id none, .quiet)
  | .poll i =>
    match s.done with
    | [] => ({ s with waker := true, inner := !s.running.isEmpty, woken := false }, .pending)
    | d :: rest =>
      let x := (d :: rest).getD i d
      let s := { s with done := (d :: rest).eraseIdx (if i < (d :: rest).length then i else 0), woken := false }
      match x.2 with
      | none => (s, .ended)
      | some v => (s, .value x.1 v)

/-- A run, with what each step gives. Not in the code: a fold of the steps. -/
def Tasks.run {α : Type} (k : Kind) (s : Tasks α) : List (Event α) → Tasks α × List (Yield α)
  | [] => (s, [])
  | e :: es =>
    let r := s.step k e
    let t := Tasks.run k r.1 es
    (t.1, r.2 :: t.2)

end Emissary.Runtime
