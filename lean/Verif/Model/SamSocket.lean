import Verif.Model.Bytes
/-!
# The socket of a SAM client

`SamSocket`, `emissary-core/src/sam/socket.rs`.

Simplifications: how a line is understood (`core::str::from_utf8` and `SamCommand::parse`) is a parameter. What the TCP stream does is an input: the segments
that are there to be read and how many bytes it takes. Wakers are left out.
-/
namespace Emissary.SamSocket

/-- What a line is: a command, not a command, or not text. sam/socket.rs 112-168. -/
inductive Line (α : Type) where
  | cmd (c : α)
  | bad
  | notText
deriving DecidableEq

/-- What is there to be read: a segment, an error or the end of the stream. When nothing is left, reading has to wait.
Not in the code: what the model takes as given, for every value of it. -/
inductive Rx where
  | seg (b : Bytes)
  | fail
  | eof

/-- What the stream does with bytes that are written: it takes some, it fails or it is full.
Not in the code: what the model takes as given, for every value of it. -/
inductive Wr where
  | took (n : Nat)
  | fail
  | full

/-- What polling the socket leads to. Not in the code: the effects that can be observed. -/
inductive Out (α : Type) where
  | pending
  | closed
  | cmd (c : α)

/-- `SamSocket`, lines 60-75. `cur` is the message that is being written, with its offset. `written` are the bytes that the stream has taken. -/
structure Sock where
  buf : Bytes
  off : Nat
  queue : List Bytes
  cur : Option (Nat × Bytes)
  written : Bytes := []

/-- The size of the read buffer, line 82. -/
def size : Nat := 4096

/-- `new`, lines 79-87. -/
def Sock.new : Sock := { buf := List.replicate size 0, off := 0, queue := [], cur := none }

/-- `send_message`, lines 95-97. -/
def Sock.send (s : Sock) (m : Bytes) : Sock := { s with queue := s.queue ++ [m] }

/-- What `poll_read` does to the buffer when it is given all that follows the offset, line 113. -/
def Sock.fill (s : Sock) (b : Bytes) : Sock := { s with buf := s.buf.take s.off ++ b ++ s.buf.drop (s.off + b.length) }

/-- `position`, line 135. -/
def newline (b : Bytes) : Option Nat := b.findIdx? (· = 10)

/-- Lines 135-165. The result is `none` if reading goes on. -/
def Sock.scan {α : Type} (line : Bytes → Line α) (s : Sock) (n : Nat) : Sock × Option (Out α) :=
  match newline s.buf with
  | none => ({ s with off := s.off + n }, none)
  | some pos =>
    match line (s.buf.take pos) with
    | .notText => (s, some .closed)
    | .cmd c => ({ s with off := 0 }, some (.cmd c))
    | .bad => ({ s with off := 0 }, none)

/-- The loop in lines 112-168: reads until there is a command, the stream ends or there is nothing more. The segments that are left come back. -/
def Sock.read {α : Type} (line : Bytes → Line α) : Nat → Sock → List Rx → Sock × List Rx × Option (Out α)
  | 0, s, rs => (s, rs, none)
  | _ + 1, s, [] => (s, [], none)
  | _ + 1, s, .fail :: rs => (s, rs, some .closed)
  | _ + 1, s, .eof :: rs => (s, rs, some .closed)
  | n + 1, s, .seg b :: rs =>
    let got := b.take (s.buf.length - s.off)
    if got = [] then (s, rs, some .closed)
    else
      let rs := if got.length = b.length then rs else .seg (b.drop got.length) :: rs
      match (s.fill got).scan line got.length with
      | (s, some o) => (s, rs, some o)
      | (s, none) => Sock.read line n s rs

/-- How often can be read at most. Not in the code: a helper of the model. -/
def work : List Rx → Nat
  | [] => 1
  | .seg b :: rs => b.length + 1 + work rs
  | _ :: rs => 1 + work rs

/-- The loop in lines 170-220: writes until all is written, the stream is full or fails. `false`: the socket is closed. -/
def Sock.write : Nat → Sock → List Wr → Sock × Bool
  | 0, s, _ => (s, true)
  | n + 1, s, ws =>
    match s.cur with
    | none => match s.queue with
      | [] => (s, true)
      | m :: q => Sock.write n { s with queue := q, cur := some (0, m) } ws
    | some (off, m) =>
      match ws with
      | [] => (s, true)
      | .full :: _ => (s, true)
      | .fail :: _ => (s, false)
      | .took k :: ws =>
        if min k (m.drop off).length = 0 then ({ s with cur := some (off, m) }, false)
        else
          let k := min k (m.drop off).length
          let s := { s with written := s.written ++ (m.drop off).take k }
          if k + off = m.length then Sock.write n { s with cur := none } ws
          else Sock.write n { s with cur := some (off + k, m) } ws

/-- How often the loop that writes goes round at most. Not in the code: a helper of the model. -/
def Sock.writeWork (s : Sock) (ws : List Wr) : Nat := s.queue.length + ws.length + 2

/-- `poll_next`, lines 108-223. -/
def Sock.poll {α : Type} (line : Bytes → Line α) (s : Sock) (rs : List Rx) (ws : List Wr) : Sock × List Rx × Out α :=
  match Sock.read line (work rs) s rs with
  | (s, rs, some o) => (s, rs, o)
  | (s, rs, none) =>
    match Sock.write (s.writeWork ws) s ws with
    | (s, true) => (s, rs, .pending)
    | (s, false) => (s, rs, .closed)

/-- A socket, what has arrived for it and was not read, whether it is open, and the commands that it returned.
Not in the code: a helper of the model. -/
structure Sys (α : Type) where
  sock : Sock
  inbox : List Rx := []
  live : Bool := true
  cmds : List α := []

/-- What happens to a socket. Not in the code: the events that the theorems quantify over. -/
inductive Op where
  | arrive (r : Rx)
  | send (m : Bytes)
  | poll (ws : List Wr)

/-- One step. A socket that is closed is dropped by its owner. Not in the code: one event, handled by the definitions above. -/
def Sys.step {α : Type} (line : Bytes → Line α) (s : Sys α) (o : Op) : Sys α :=
  if s.live = false then s
  else match o with
    | .arrive r => { s with inbox := s.inbox ++ [r] }
    | .send m => { s with sock := s.sock.send m }
    | .poll ws => match s.sock.poll line s.inbox ws with
      | (q, rs, .pending) => { s with sock := q, inbox := rs }
      | (q, rs, .closed) => { s with sock := q, inbox := rs, live := false }
      | (q, rs, .cmd c) => { s with sock := q, inbox := rs, cmds := s.cmds ++ [c] }

/-- Many steps. Not in the code: a fold of the steps. -/
def Sys.run {α : Type} (line : Bytes → Line α) (s : Sys α) (ops : List Op) : Sys α := ops.foldl (Sys.step line) s

end Emissary.SamSocket
