import Verif.Model.SamParser
/-!
# SAM connections before they belong to a session

`PendingSamConnection`, `emissary-core/src/sam/pending/connection.rs`.

Simplifications: commands are the parsed ones (`SamParser`), each with the keys that are made if it asks for some. Times are milliseconds. The text of a reply is
given by its parts. The socket is `SamSocket`; here it is the commands that it returns in one poll, and whether it is closed after them.
-/
namespace Emissary.SamHello
open Emissary.SamParser

/-- Keys that are made for a client (409-416): the serialized destination and the two private keys. -/
structure Fresh where
  dest : Bytes
  priv : Bytes
  sign : Bytes

/-- What the client is sent (273-277, 395-399, 431-435). -/
inductive Reply where
  | hello (v : Version)
  | notFound (name : Str)
  /-- `PUB` and `PRIV` before they are written in base 64. -/
  | dest (pub priv : Bytes)

/-- How a connection ends (235). -/
inductive Result (D : Type) where
  | socketClosed
  | invalid
  | timeout
  | done (c : Cmd D) (v : Version)

/-- `KEEP_ALIVE_TIMEOUT` (48). -/
def keepAlive : Nat := 10000

/-- `PendingSamConnection` (214-220): when the timer fires, the version if the client has said hello, and what it was sent. -/
structure Conn where
  deadline : Nat
  version : Option Version := none
  sent : List Reply := []

/-- `new` (224-231). -/
def Conn.new (now : Nat) : Conn := { deadline := now + keepAlive }

/-- The version that is agreed on (255-265). -/
def agree : Option Version → Version
  | some .v33 => .v32
  | some v => v
  | none => .v32

/-- One command (254-291, 308-445). -/
def Conn.handle {D : Type} (now : Nat) (c : Conn) (x : Cmd D) (f : Fresh) : Conn × Option (Result D) :=
  match c.version with
  | none => match x with
    | .hello _ max =>
      ({ deadline := now + keepAlive, version := some (agree max), sent := c.sent ++ [.hello (agree max)] }, none)
    | _ => (c, some .invalid)
  | some v => match x with
    | .create .. | .connect .. | .accept .. | .forward .. => (c, some (.done x v))
    | .lookup name => ({ c with sent := c.sent ++ [.notFound name] }, none)
    | .generate => ({ c with sent := c.sent ++ [.dest f.dest (f.dest ++ f.priv ++ f.sign)] }, none)
    | .hello .. => (c, some .invalid)

/-- The loop of `poll` (238-456) over the commands that are there. -/
def Conn.handleAll {D : Type} (now : Nat) : Conn → List (Cmd D × Fresh) → Conn × Option (Result D)
  | c, [] => (c, none)
  | c, (x, f) :: xs => match c.handle now x f with
    | (c, some r) => (c, some r)
    | (c, none) => Conn.handleAll now c xs

/-- A poll: the time, the commands, and whether the socket is closed after them.
Not in the code: the events that the theorems quantify over. -/
structure Poll (D : Type) where
  now : Nat
  cmds : List (Cmd D × Fresh) := []
  closed : Bool := false

/-- `poll` (237-468). -/
def Conn.poll {D : Type} (c : Conn) (p : Poll D) : Conn × Option (Result D) :=
  match c.handleAll p.now p.cmds with
  | (c, some r) => (c, some r)
  | (c, none) => if p.closed then (c, some .socketClosed) else if c.deadline ≤ p.now then (c, some .timeout) else (c, none)

/-- Polls until there is a result. Not in the code: a fold of the steps. -/
def Conn.run {D : Type} : Conn → List (Poll D) → Conn × Option (Result D)
  | c, [] => (c, none)
  | c, p :: ps => match c.poll p with
    | (c, some r) => (c, some r)
    | (c, none) => Conn.run c ps

end Emissary.SamHello
