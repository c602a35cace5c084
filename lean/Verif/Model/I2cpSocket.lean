import Verif.Model.SamSocket
/-!
# The socket of an I2CP client

`I2cpSocket`, `emissary-core/src/i2cp/socket.rs`.

Simplifications: how a message is understood (`MessageType::from_u8` and `Message::parse`) is a parameter. What the TCP stream does is an input: the segments
that are there to be read and how many bytes it takes. Of the read buffer only the bytes before the offset are kept, since the others are overwritten before they are used.
The loop that writes is the one of `SamSocket`. Wakers are left out.
-/
namespace Emissary.I2cpSocket

open Emissary.SamSocket (Rx Wr)

/-- What a frame is: a message, not a message, or a panic. Result of `Message::parse`, i2cp/message/mod.rs 267-413. -/
inductive Msg (α : Type) where
  | ok (m : α)
  | bad
  | panic
deriving DecidableEq

/-- `ReadState`, lines 38-58: what has been read of the header or of a frame of a size and a type. -/
inductive Rd where
  | head (got : Bytes)
  | frame (size : Nat) (ty : UInt8) (got : Bytes)
deriving DecidableEq

/-- What polling the socket leads to. Not in the code: the effects that can be observed. -/
inductive Out (α : Type) where
  | pending
  | closed
  | msg (m : α)
  | panic

/-- `I2CP_HEADER_SIZE`, message/mod.rs 55. -/
def headerSize : Nat := 5
/-- The size of the read buffer, line 105. -/
def bufSize : Nat := 0xffff

/-- How many bytes can be read at once, lines 133-135 and 216: `none` if the slice is out of range. -/
def Rd.want : Rd → Option Nat
  | .head got => some (headerSize - got.length)
  | .frame size _ got => if bufSize < size then none else some (size - got.length)

/-- A frame is complete, lines 173-196 and 246-270. -/
def finish {α : Type} (parse : UInt8 → Bytes → Msg α) (ty : UInt8) (body : Bytes) : Rd × Option (Out α) :=
  match parse ty body with
  | .ok m => (.head [], some (.msg m))
  | .bad => (.head [], none)
  | .panic => (.head [], some .panic)

/-- Bytes have been read, lines 156-202 and 236-271. The result is `none` if reading goes on. -/
def Rd.take {α : Type} (parse : UInt8 → Bytes → Msg α) (r : Rd) (b : Bytes) : Rd × Option (Out α) :=
  match r with
  | .head got =>
    if (got ++ b).length ≠ headerSize then (.head (got ++ b), none)
    else
      let size := unbe ((got ++ b).take 4)
      let ty := (got ++ b).getD 4 0
      if size = 0 then finish parse ty [] else (.frame size ty [], none)
  | .frame size ty got =>
    if (got ++ b).length < size then (.frame size ty (got ++ b), none) else finish parse ty (got ++ b)

/-- The loop in lines 130-274: reads until there is a message, the stream ends or there is nothing more. The segments that are left come back. -/
def read {α : Type} (parse : UInt8 → Bytes → Msg α) : Nat → Rd → List Rx → Rd × List Rx × Option (Out α)
  | 0, r, rs => (r, rs, none)
  | n + 1, r, rs =>
    match r.want with
    | none => (r, rs, some .panic)
    | some want => match rs with
      | [] => (r, [], none)
      | .fail :: rs => (r, rs, some .closed)
      | .eof :: rs => (r, rs, some .closed)
      | .seg b :: rs =>
        if b.take want = [] then (r, rs, some .closed)
        else
          let left := if b.length ≤ want then rs else .seg (b.drop want) :: rs
          match r.take parse (b.take want) with
          | (r, some o) => (r, left, some o)
          | (r, none) => read parse n r left

/-- How often the loop that reads goes round at most. Not in the code: a helper of the model. -/
def work (rs : List Rx) : Nat := SamSocket.work rs + 1

/-- `I2cpSocket`, lines 80-98. `w` is what has to do with writing. -/
structure Sock where
  rd : Rd
  w : SamSocket.Sock

/-- `new`, lines 102-111. -/
def Sock.new : Sock := { rd := .head [], w := .new }

/-- `send_message`, lines 114-120. -/
def Sock.send (s : Sock) (m : Bytes) : Sock := { s with w := s.w.send m }

/-- `poll_next`, lines 126-331. -/
def Sock.poll {α : Type} (parse : UInt8 → Bytes → Msg α) (s : Sock) (rs : List Rx) (ws : List Wr) : Sock × List Rx × Out α :=
  match read parse (work rs) s.rd rs with
  | (r, rs, some o) => ({ s with rd := r }, rs, o)
  | (r, rs, none) =>
    match SamSocket.Sock.write (s.w.writeWork ws) s.w ws with
    | (w, true) => ({ rd := r, w := w }, rs, .pending)
    | (w, false) => ({ rd := r, w := w }, rs, .closed)

/-- A socket, what has arrived for it and was not read, whether it is open, whether its task panicked, and the messages that it returned.
Not in the code: a helper of the model. -/
structure Sys (α : Type) where
  sock : Sock
  inbox : List Rx := []
  live : Bool := true
  crashed : Bool := false
  msgs : List α := []

/-- A new socket. Not in the code: a helper of the model. -/
def Sys.new {α : Type} : Sys α := { sock := .new }

/-- What happens to a socket. Not in the code: the events that the theorems quantify over. -/
inductive Op where
  | arrive (r : Rx)
  | send (m : Bytes)
  | poll (ws : List Wr)

/-- One step. A socket that is closed is dropped by its owner. Not in the code: one event, handled by the definitions above. -/
def Sys.step {α : Type} (parse : UInt8 → Bytes → Msg α) (s : Sys α) (o : Op) : Sys α :=
  if s.live = false then s
  else match o with
    | .arrive r => { s with inbox := s.inbox ++ [r] }
    | .send m => { s with sock := s.sock.send m }
    | .poll ws => match s.sock.poll parse s.inbox ws with
      | (q, rs, .pending) => { s with sock := q, inbox := rs }
      | (q, rs, .closed) => { s with sock := q, inbox := rs, live := false }
      | (q, rs, .panic) => { s with sock := q, inbox := rs, live := false, crashed := true }
      | (q, rs, .msg c) => { s with sock := q, inbox := rs, msgs := s.msgs ++ [c] }

/-- Many steps. Not in the code: a fold of the steps. -/
def Sys.run {α : Type} (parse : UInt8 → Bytes → Msg α) (s : Sys α) (ops : List Op) : Sys α := ops.foldl (Sys.step parse) s

end Emissary.I2cpSocket
