import Verif.Model.Ntcp2

/-!
# One direction of an NTCP2 connection

The command channel, the writing half of the session at one router, the TCP connection and the reading half at the
other router.

Simplifications: the two directions of a connection share no state (`sip.sender` and `send_cipher` belong to the
writer, `sip.receiver` and `recv_cipher` to the reader), so one direction is modelled. TCP is a byte queue of bounded
size that loses nothing; it neither fails nor closes. An iteration of the read or write loop of `poll` is one event; a
`Poll::Pending` leaves the session as it is. The bandwidth counters are left out.
-/

namespace Emissary.Ntcp2.Link
open Emissary.I2np

/-- `channel(512)` (transport/ntcp2/session/active.rs 168). -/
def channelSize : Nat := 512

/-- A direction: messages in the command channel, writer, bytes in the socket buffers, reader. `handed` is a ghost
field: the messages for which `SubsystemHandle::send` returned `Ok` (transport/mod.rs 339), oldest first. -/
structure Link where
  queue : List Message := []
  w : Writer
  pipe : Bytes := []
  r : Reader
  handed : List Message := []

/-- What happens: a subsystem sends a message; an iteration of the write loop, with the socket willing to take `n`
bytes; an iteration of the read loop, with the socket giving at most `n` bytes.
Not in the code: the events that the theorems quantify over. -/
inductive Event where
  | send (m : Message)
  | write (n : Nat)
  | read (n : Nat)

/-- `try_send` (transport/mod.rs 339): a full channel gives the message back. -/
def Link.send (l : Link) (m : Message) : Link :=
  if l.queue.length < channelSize then { l with queue := l.queue ++ [m], handed := l.handed ++ [m] } else l

/-- One iteration of the write loop (transport/ntcp2/session/active.rs 375-470): in `GetMessage` take a command or wait; otherwise write as
much as the socket takes; a full socket means `Pending`. `room` is the size of the socket buffers. -/
def Link.write (E : Env) (room : Nat) (l : Link) (n : Nat) : Link :=
  match l.w.state with
  | .getMessage =>
    match l.queue with
    | [] => l
    | m :: queue => { l with queue := queue, w := l.w.step E (.cmd m.serializeShort) }
  | _ =>
    let k := min n (room - l.pipe.length)
    if k = 0 then l
    else
      let w := l.w.step E (.write k)
      { l with w := w, pipe := l.pipe ++ w.out.drop l.w.out.length }

/-- One iteration of the read loop (transport/ntcp2/session/active.rs 234-373): nothing to read means `Pending`. -/
def Link.read (E : Env) (l : Link) (n : Nat) : Link :=
  if l.pipe.isEmpty then l
  else
    let k := min (max 1 n) l.r.space
    { l with r := l.r.read E (l.pipe.take k), pipe := l.pipe.drop k }

/-- One event (transport/ntcp2/session/active.rs 229-478). -/
def Link.step (E : Env) (room : Nat) (l : Link) : Event → Link
  | .send m => l.send m
  | .write n => l.write E room n
  | .read n => l.read E n

/-- A new connection (transport/ntcp2/session/active.rs 152-195) after the handshake. -/
def Link.init (c : Cipher) (tx rx : Sip) : Link :=
  { w := { cipher := c, sip := tx }, r := { cipher := c, sip := rx } }

/-- The state after the first `t` events of a schedule. Not in the code: a fold of the steps. -/
def Link.at (E : Env) (room : Nat) (l : Link) (ev : Nat → Event) : Nat → Link
  | 0 => l
  | t + 1 => (l.at E room ev t).step E room (ev t)

end Emissary.Ntcp2.Link
