import Verif.Model.Ssu2Packet
import Verif.Model.Ssu2Block
import Verif.Model.AMap
/-!
# The SSU2 socket and the sessions it runs

`emissary-core/src/transport/ssu2/socket.rs` (213-563), `session/active/mod.rs` (232-336, 429-509) and `session/terminating.rs` (127-164): how
datagrams reach sessions, how sessions come and go and what is kept of them. The handshakes are `Ssu2Handshake`, the packets `Ssu2Packet`,
the contents of a session's packets `Ssu2Active`; here a handshake's outcome is a step of its own.
-/
namespace Emissary.Ssu2.Socket

/-- A session's task, in the order of its life. Not in the code: a helper of the model. -/
inductive Phase where
  /-- negotiating (`pending_sessions`) -/
  | pending
  /-- negotiated, waiting for the transport manager's decision (`unvalidated_sessions`) -/
  | unvalidated (peer : Bytes)
  /-- running (`active_sessions`) -/
  | active (peer : Bytes)
  /-- its event loop has returned a reason; the socket has not yet seen it -/
  | ended (peer : Bytes) (reason : Nat)
  /-- telling the peer (`terminating_session`) -/
  | terminating (peer : Bytes)
  /-- the task is gone: the handshake failed, or the connection was rejected -/
  | gone
  /-- the task panicked; what the runtime does then is C249 -/
  | crashed
deriving Repr, DecidableEq

/-- What a negotiated session is given (`Ssu2SessionContext`, session/active/mod.rs 63-86). -/
structure Ctx where
  recv : KeyCtx := ⟨[], []⟩
  send : KeyCtx := ⟨[], []⟩
  intro : Bytes := []
  dst : Nat := 0
deriving Repr, DecidableEq

/-- A session: its channel (`pkt_rx`), what it has taken out of it so far, and what it has told the other subsystems: `true` for
`report_connection_established`, `false` for `report_connection_closed`. transport/ssu2/session/active/mod.rs 63-86. -/
structure Sess where
  phase : Phase := .pending
  ctx : Ctx := {}
  nextNum : Nat := 0
  queue : List Bytes := []
  taken : List Bytes := []
  told : List Bool := []
deriving Repr, DecidableEq

/-- `TransportEvent` (transport/mod.rs 209-236). `ConnectionClosed` exists in the type but the socket has no code that makes one
(socket.rs 429-431 is a comment). -/
inductive Event where
  | established (peer : Bytes)
  | failure (peer : Bytes)
  | closed (peer : Bytes)
deriving Repr, DecidableEq

/-- `Ssu2Socket` (socket.rs 96-160). Sessions are numbered in the order in which they were started; the numbers are not in the code. -/
structure Sock where
  /-- `sessions`: the sending half of a session's channel by connection id -/
  sessions : AMap Nat Nat := []
  /-- `pending_outbound`: intro keys by address -/
  dialled : AMap Bytes Bytes := []
  /-- `unvalidated_sessions` -/
  waiting : AMap Bytes Nat := []
  all : List Sess := []
  /-- events returned by `poll_next`, in order -/
  events : List Event := []
  /-- `poll_next` panicked: the router's task is gone -/
  panicked : Bool := false
deriving Repr, DecidableEq

/-- `CHANNEL_SIZE` (socket.rs 70). -/
def channelSize : Nat := 256

/-- The receiving half of the channel still exists: the handshake's task, the context that waits for the manager and the running session
own it in turn, and `TerminatingSsu2Session` takes it over. -/
def Sess.listening (x : Sess) : Bool :=
  match x.phase with
  | .gone | .crashed => false
  | _ => true

/-- `tx.try_send` (socket.rs 217-224, 264-269): refused if the channel is full or has lost its receiver; the error is only logged. -/
def Sess.push (pkt : Bytes) (x : Sess) : Sess :=
  if x.listening ∧ x.queue.length < channelSize then { x with queue := x.queue ++ [pkt] } else x

/-- Changes session `k`. Not in the code: a helper of the model. -/
def Sock.on (k : Nat) (f : Sess → Sess) (s : Sock) : Sock := { s with all := s.all.modify k f }

/-- `handle_packet` (socket.rs 213-290): `started` says whether `InboundSsu2Session::new` accepted the token request (227-253). -/
def Sock.datagram (C : Crypto) (chk : Bool) (intro : Bytes) (addr pkt : Bytes) (started : Bool) (s : Sock) : Sock :=
  match route C chk intro s.sessions.get (s.dialled.get addr) pkt with
  | .deliver k p => s.on k (Sess.push p)
  | .inbound dst _ _ _ =>
    if started then { s with sessions := s.sessions.put dst s.all.length, all := s.all ++ [{}] } else s
  | .dropped => s
  | .error => s
  | .panic => { s with panicked := true }

/-- `connect` (292-342): the connection id is drawn at random; that an id already in use is drawn again, which would close the earlier session's
channel, is not modelled. -/
def Sock.connect (addr key : Bytes) (cid : Nat) (s : Sock) : Sock :=
  { s with sessions := s.sessions.put cid s.all.length, dialled := s.dialled.put addr key, all := s.all ++ [{}] }

/-- A handshake has ended in a session with `peer` (440-476). -/
def Sock.negotiated (k : Nat) (peer : Bytes) (ctx : Ctx) (num : Nat) (s : Sock) : Sock :=
  if (s.all[k]?.map (·.phase)) = some .pending then
    { s.on k (fun x => { x with phase := .unvalidated peer, ctx := ctx, nextNum := num }) with
      waiting := s.waiting.put peer k, events := s.events ++ [.established peer] }
  else s

/-- A handshake has failed or timed out (477-518): an event only if the peer's id is known. -/
def Sock.gaveUp (k : Nat) (peer : Option Bytes) (s : Sock) : Sock :=
  if (s.all[k]?.map (·.phase)) = some .pending then
    { s.on k (fun x => { x with phase := .gone }) with
      events := s.events ++ (match peer with | none => [] | some r => [.failure r]) }
  else s

/-- `accept` (344-369): `run` reports the connection first (session/active/mod.rs 431-433). -/
def Sock.accept (chk : Bool) (peer : Bytes) (s : Sock) : Sock :=
  match s.waiting.get peer with
  | none => if chk then { s with panicked := true } else s
  | some k =>
    { s.on k (fun x => { x with phase := .active peer, told := x.told ++ [true] }) with waiting := s.waiting.del peer }

/-- `reject` (371-390): the context is dropped. -/
def Sock.reject (chk : Bool) (peer : Bytes) (s : Sock) : Sock :=
  match s.waiting.get peer with
  | none => if chk then { s with panicked := true } else s
  | some k => { s.on k (fun x => { x with phase := .gone }) with waiting := s.waiting.del peer }

/-- What an active session does with a packet. transport/ssu2/session/active/mod.rs 232-336. -/
inductive Verdict where
  /-- the contents are handled and the session goes on -/
  | contents (bs : List Block)
  /-- the packet is ignored -/
  | ignored
  /-- the session's event loop returns with this reason -/
  | ends (reason : Nat)
  /-- the task panics -/
  | panics
deriving Repr, DecidableEq

/-- The reason of the first termination block. transport/ssu2/session/active/mod.rs 232-336. -/
def endOf : List Block → Option Nat
  | [] => none
  | .termination _ r :: _ => some r
  | _ :: bs => endOf bs

/-- `handle_packet` and the match on its result (session/active/mod.rs 232-336, 466-487): a packet that cannot be decrypted is ignored, one
that cannot be parsed is a failed `debug_assert!`, one with a termination block ends the session. The log line "shutting down session" (479)
is not followed by a return. -/
def verdict (C : Crypto) (chk : Bool) (valid : Bytes → Bool) (kc : KeyCtx) (pkt : Bytes) : Verdict :=
  match openData C kc pkt with
  | .panic => .panics
  | .err => .ignored
  | .ok (_, payload) =>
    match parseBlocks chk valid payload with
    | .panic => .panics
    | .err => if chk then .panics else .ignored
    | .ok bs =>
      match endOf bs with
      | some r => .ends r
      | none => .contents bs

/-- A session takes the next packet from its channel. While it negotiates that is the handshake's business; while it waits for the manager
nobody takes anything; once its event loop has ended `run` reports that (session/active/mod.rs 441) and returns. -/
def Sess.take (C : Crypto) (chk : Bool) (valid : Bytes → Bool) (x : Sess) : Sess :=
  match x.queue with
  | [] => x
  | p :: ps =>
    match x.phase with
    | .pending => { x with queue := ps, taken := x.taken ++ [p] }
    | .active peer =>
      match verdict C chk valid x.ctx.recv p with
      | .contents _ | .ignored => { x with queue := ps, taken := x.taken ++ [p] }
      | .ends r => { x with queue := ps, taken := x.taken ++ [p], phase := .ended peer r, told := x.told ++ [false] }
      | .panics => { x with queue := ps, taken := x.taken ++ [p], phase := .crashed }
    | _ => x

/-- `poll_next` finds that a session has returned (422-434): a `TerminatingSsu2Session` is made, inside `poll_next`; its first act is to
build the packet that tells the peer. -/
def Sock.reap (C : Crypto) (k : Nat) (s : Sock) : Sock :=
  match s.all[k]? with
  | none => s
  | some x =>
    match x.phase with
    | .ended peer reason =>
      match terminationPacket C x.ctx.intro x.ctx.send x.ctx.dst x.nextNum reason with
      | .ok _ => s.on k (fun x => { x with phase := .terminating peer })
      | _ => { s with panicked := true }
    | _ => s

/-- What can happen. `pass` is time: the timers of an active session are those of its duplicate filter and fragment handler
(session/active/mod.rs 504-505), which never end it. `sent` is a packet the session sends (each takes a packet number). -/
inductive Op where
  | datagram (addr pkt : Bytes) (started : Bool)
  | connect (addr key : Bytes) (cid : Nat)
  | negotiated (k : Nat) (peer : Bytes) (ctx : Ctx) (num : Nat)
  | gaveUp (k : Nat) (peer : Option Bytes)
  | accept (peer : Bytes)
  | reject (peer : Bytes)
  | take (k : Nat)
  | sent (k : Nat)
  | reap (k : Nat)
  | pass (ms : Nat)
deriving Repr, DecidableEq

/-- One step; after a panic nothing happens any more. Not in the code: one event, handled by the definitions above. -/
def Sock.step (C : Crypto) (chk : Bool) (valid : Bytes → Bool) (intro : Bytes) (s : Sock) (o : Op) : Sock :=
  if s.panicked then s
  else
    match o with
    | .datagram addr pkt started => s.datagram C chk intro addr pkt started
    | .connect addr key cid => s.connect addr key cid
    | .negotiated k peer ctx num => s.negotiated k peer ctx num
    | .gaveUp k peer => s.gaveUp k peer
    | .accept peer => s.accept chk peer
    | .reject peer => s.reject chk peer
    | .take k => s.on k (Sess.take C chk valid)
    | .sent k => s.on k (fun x => { x with nextNum := x.nextNum + 1 })
    | .reap k => s.reap C k
    | .pass _ => s

/-- A history. Not in the code: a fold of the steps. -/
def Sock.run (C : Crypto) (chk : Bool) (valid : Bytes → Bool) (intro : Bytes) (s : Sock) (os : List Op) : Sock :=
  os.foldl (Sock.step C chk valid intro) s

end Emissary.Ssu2.Socket
