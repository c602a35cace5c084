import Verif.Model.Transport
/-!
# Two routers and the NTCP2 connections between them

The transport managers of two routers (`Verif.Model.Transport`), joined by the connections they open to each other.
Models how `Ntcp2Transport` (/repo/emissary-core/src/transport/ntcp2/mod.rs 208-350) and `SessionManager`
(/repo/emissary-core/src/transport/ntcp2/session/mod.rs 163-437) carry the decisions of one manager to the other router. Other routers, the contents of
the handshake and the timing are left out; each router knows the other.
-/
namespace Emissary.Meet
open Emissary Emissary.Transport

/-- The two routers. Not in the code: a helper of the model. -/
inductive Side | a | b
deriving DecidableEq, Repr

/-- Not in the code: a helper of the model. -/
def Side.other : Side → Side
  | .a => .b
  | .b => .a

/-- One end of a connection: in the handshake (`pending_handshakes`), running (`open_connections`), or dropped.
transport/ntcp2/mod.rs 76-105. -/
inductive End | shaking | up | down
deriving DecidableEq, Repr

/-- A connection opened by `dialler`. `sent` says that the dialler has sent the last message of the handshake
(transport/ntcp2/session/mod.rs 264). -/
structure Conn where
  dialler : Side
  near : End := .shaking
  far : End := .shaking
  sent : Bool := false
deriving DecidableEq, Repr

/-- The end of a connection at a router. Not in the code: a helper of the model. -/
def Conn.at (c : Conn) (s : Side) : End := if c.dialler = s then c.near else c.far

/-- Not in the code: a helper of the model. -/
def Conn.set (c : Conn) (s : Side) (e : End) : Conn := if c.dialler = s then { c with near := e } else { c with far := e }

/-- `ma` and `mb` are the managers. Not in the code: a helper of the model. -/
structure World where
  ma : Manager := { known := fun _ => true }
  mb : Manager := { known := fun _ => true }
  conns : List Conn := []
  panicked : Bool := false

/-- Not in the code: a helper of the model. -/
def World.man (w : World) : Side → Manager
  | .a => w.ma
  | .b => w.mb

/-- Not in the code: a helper of the model. -/
def World.setMan (w : World) (s : Side) (m : Manager) : World :=
  match s with
  | .a => { w with ma := m }
  | .b => { w with mb := m }

/-- What happens: a subsystem at `s` asks for a connection to the other router; the handshake of connection `i` ends well at `s`; the
end of connection `i` at `s` is lost, be it an error, or that the other end is gone.
Not in the code: the events that the theorems quantify over. -/
inductive Op where
  | ask (s : Side)
  | done (s : Side) (i : Nat)
  | lost (s : Side) (i : Nat)
deriving DecidableEq, Repr

/-- One event. `peer s` is the id of the other router, as seen from `s`. The dialler's handshake ends when it has sent the last
message (transport/ntcp2/session/mod.rs 264-274), the other's when it has read it (365-392); both are then announced to the manager, which accepts or
rejects; a rejected session is dropped (transport/ntcp2/mod.rs 251-260). A failed handshake is announced by the dialler only (transport/ntcp2/mod.rs 327-342), the
end of an open session by either (278-283). -/
def World.step (chk : Bool) (peer : Side → RouterId) (w : World) : Op → World
  | .ask s =>
    let r := (w.man s).step chk (.connect (peer s) true)
    { w.setMan s r.1 with conns := w.conns ++ (if .dial (peer s) ∈ r.2 then [{ dialler := s }] else []) }
  | .done s i =>
    match w.conns[i]? with
    | none => w
    | some c =>
      if c.at s = .shaking ∧ (c.dialler = s ∨ c.sent = true) then
        let r := (w.man s).step chk (if c.dialler = s then .outbound (peer s) else .inbound (peer s))
        let c := { c.set s (if .accept (peer s) ∈ r.2 then .up else .down) with sent := true }
        { w.setMan s r.1 with conns := w.conns.set i c, panicked := w.panicked || (r.2.contains .panic) }
      else w
  | .lost s i =>
    match w.conns[i]? with
    | none => w
    | some c =>
      match c.at s with
      | .down => w
      | .up =>
        { w.setMan s ((w.man s).step chk (.closed (peer s))).1 with conns := w.conns.set i (c.set s .down) }
      | .shaking =>
        let m := if c.dialler = s then ((w.man s).step chk (.failure (peer s))).1 else w.man s
        { w.setMan s m with conns := w.conns.set i (c.set s .down) }

/-- Not in the code: a fold of the steps. -/
def World.run (chk : Bool) (peer : Side → RouterId) (w : World) (ops : List Op) : World := ops.foldl (World.step chk peer) w

end Emissary.Meet
