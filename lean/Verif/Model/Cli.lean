import Verif.Model.Events
/-!
# The program around the router

`emissary-cli/src/main.rs` (`router_event_loop` and both `main`s), `emissary-cli/src/signal.rs`, `PortMapper::{shutdown,poll_next}` of
`emissary-cli/src/port_mapper/mod.rs` and `emissary-cli/src/ui/mod.rs`. Simplifications: `tokio::select!` takes any branch that is ready, so
the order in which the branches are taken is left open; a poll of the router that gives `Pending` may come at any time; floating point numbers
are fractions except where `F64` is used; layout, colours and the clipboard are left out.
-/
namespace Emissary.Cli
open Emissary

/-! ## The event loop -/

/-- The locals of `router_event_loop` (main.rs 285-290) with the channels that lead to them. -/
structure State where
  /-- notices in the channel of the signal handler, 16 places (signal.rs 35) -/
  signals : Nat := 0
  /-- notices in the channel of the button, one place (main.rs 324, 343) -/
  button : Nat := 0
  /-- `shutdown_tx` of the port mapper was taken (mod.rs 51) -/
  asked : Bool := false
  /-- the task of the port mapper is there and holds its ends of the channels -/
  task : Bool := false
  /-- the loop is inside `port_mapper.shutdown().await` -/
  waiting : Bool := false
  /-- addresses in the channel of the port mapper, 64 places (mod.rs 60) -/
  found : List Nat := []
  /-- addresses that the router was told -/
  told : List Nat := []
  router : Router.State := {}
  /-- the loop is over -/
  ended : Bool := false
deriving DecidableEq, Repr

/-- What happens. Not in the code: the events that the theorems quantify over. -/
inductive Op
  /-- Ctrl-C -/
  | interrupt
  /-- the window's button for a graceful shutdown -/
  | press
  /-- the port mapper found an address -/
  | address (a : Nat)
  /-- the task of the port mapper answers the request to shut down and ends, or ends otherwise -/
  | mapperEnds
  /-- the loop takes a notice of the signal handler -/
  | takeSignal
  | takeButton
  | takeAddress
  /-- the loop is polled while it waits for the port mapper -/
  | resume
  /-- the loop polls the router -/
  | pollRouter (timer over : Bool)
  /-- something happens to the router from elsewhere -/
  | elsewhere (o : Router.Op)
deriving DecidableEq, Repr

/-- The two branches that ask for the shutdown (main.rs 293-300) up to the first point at which they wait, `PortMapper::shutdown` (mod.rs 127-136):
nothing is waited for if the request was sent before, or if the task is gone and with it the receiver. -/
def State.ask (s : State) : State :=
  if s.asked || !s.task then { s with asked := true, router := s.router.step .request }
  else { s with asked := true, waiting := true }

/-- One step. Not in the code: one event, handled by the definitions above. -/
def State.step (s : State) : Op → State
  -- signal.rs 37-39: `try_send`
  | .interrupt => if s.signals < 16 then { s with signals := s.signals + 1 } else s
  -- ui/mod.rs 248: `try_send`
  | .press => if s.button < 1 then { s with button := s.button + 1 } else s
  -- a full channel makes the port mapper wait
  | .address a => if s.task && decide (s.found.length < 64) then { s with found := s.found ++ [a] } else s
  | .mapperEnds => { s with task := false }
  -- main.rs 293-296
  | .takeSignal => if s.ended || s.waiting || s.signals == 0 then s else { s with signals := s.signals - 1 }.ask
  -- main.rs 297-300
  | .takeButton => if s.ended || s.waiting || s.button == 0 then s else { s with button := s.button - 1 }.ask
  -- main.rs 301-304; `PortMapper::poll_next` (mod.rs 142-153)
  | .takeAddress => if s.ended || s.waiting then s else match s.found with
    | [] => s
    | a :: l => { s with found := l, told := s.told ++ [a] }
  -- mod.rs 133, then main.rs 295, 299
  | .resume => if s.waiting && !s.task then { s with waiting := false, router := s.router.step .request } else s
  -- main.rs 305-311
  | .pollRouter timer over => if s.ended || s.waiting then s else
    { s with router := s.router.step (.poll timer over), ended := (s.router.step (.poll timer over)).over }
  -- the loop is the only one that asks or polls the router
  | .elsewhere .request => s
  | .elsewhere (.poll _ _) => s
  | .elsewhere o => { s with router := s.router.step o }

/-- The start of the loop. `mapper`: the task of the port mapper was started (mod.rs 94-114). -/
def State.init (mapper : Bool) : State := { task := mapper }

/-- A run. Not in the code: a fold of the steps. -/
def State.run (s : State) (os : List Op) : State := os.foldl State.step s

/-! ## The window -/

/-- `Status` (ui/mod.rs 43-46), with the time in seconds at which the shutdown began. -/
inductive Status
  | active
  | shuttingDown (since : Nat)
deriving DecidableEq, Repr

/-- `View` (ui/mod.rs 36-41). -/
inductive View
  | overview
  | destinations
  | settings
deriving DecidableEq, Repr

/-- `Message` (ui/mod.rs 74-82) without the clipboard. -/
inductive Message
  | button (v : View)
  | theme (light : Bool)
  | graceful
  | forceful
  | tick
deriving DecidableEq, Repr

/-- `RouterUi` (ui/mod.rs 85-130). The numbers are the fields `bandwidth`, `num_*` and `transit_bandwidth`. -/
structure Ui where
  numbers : Events.Numbers := {}
  clients : List String := []
  servers : List (String × String) := []
  light : Bool := false
  status : Status := .active
  view : View := .overview
deriving DecidableEq, Repr

/-- One event of the loop of `Message::Tick` (ui/mod.rs 210-234). -/
def Ui.event (now : Nat) (u : Ui) : Events.Event → Ui
  | .status c s n => { u with numbers := n, servers := u.servers ++ s, clients := u.clients ++ c }
  | .shuttingDown => match u.status with
    | .active => { u with status := .shuttingDown now }
    | .shuttingDown _ => u
  | .shutDown => u

/-- The window, the events that it reads, and the notices that it sent (ui/mod.rs 83-130). -/
structure Window where
  ui : Ui := {}
  events : Events.State := {}
  /-- notices put into the channel of the button, and whether the last one is still there (one place) -/
  sent : Nat := 0
  full : Bool := false
  /-- the process has ended (ui/mod.rs 252) -/
  gone : Bool := false
deriving DecidableEq, Repr

/-- What happens to the window. Not in the code: the events that the theorems quantify over. -/
inductive WOp
  | message (now : Nat) (m : Message)
  /-- another part of the router reports something, or the router polls or shuts down its event manager -/
  | report (o : Events.Op)
  /-- the event loop takes the notice of the button -/
  | taken
deriving DecidableEq, Repr

/-- The loop of `Message::Tick`: all that is in the channel is read (ui/mod.rs 210-235). -/
def readAll (e : Events.State) : Events.State := { e with queue := [], seen := e.seen ++ e.queue }

/-- `update` (ui/mod.rs 206-256). Nothing else reads the events (main.rs 366). -/
def Window.step (w : Window) : WOp → Window
  | .message now .tick => { w with ui := w.events.queue.foldl (Ui.event now) w.ui, events := readAll w.events }
  | .message _ (.button v) => { w with ui := { w.ui with view := v } }
  | .message _ (.theme l) => { w with ui := { w.ui with light := l } }
  | .message now .graceful =>
    { w with ui := { w.ui with status := .shuttingDown now }, sent := if w.full then w.sent else w.sent + 1, full := true }
  | .message _ .forceful => { w with gone := true }
  | .report .read => w
  | .report o => { w with events := w.events.step o }
  | .taken => { w with full := false }

/-- A run from the start. Not in the code: a fold of the steps. -/
def Window.run (ops : List WOp) : Window := ops.foldl Window.step {}

/-! ## What the window shows -/

/-- The line about the shutdown (ui/mod.rs 48-72): minutes and seconds, seconds, or now. -/
inductive Line
  | active
  | minutes (m s : Nat)
  | seconds (s : Nat)
  | now
deriving DecidableEq, Repr

/-- `Status::fmt` (ui/mod.rs 48-72). -/
def Status.line (now : Nat) : Status → Line
  | .active => .active
  | .shuttingDown since =>
    let remaining := 10 * 60 - (now - since)
    if 60 < remaining then .minutes (remaining / 60) (remaining % 60)
    else if remaining = 0 then .now
    else .seconds remaining

/-- The units of `calculate_bandwidth` (ui/mod.rs 163-193). -/
inductive Prefix
  | B | KB | MB | GB | TB
deriving DecidableEq, Repr

/-- `calculate_bandwidth` (ui/mod.rs 166-193) of the fraction `n / d`: the number shown is `n / (d * f)` for the `f` given. The fourth test repeats
the third and never holds. -/
def scale (n d : Nat) : Nat × Prefix :=
  if n < 1000 * d then (1, .B)
  else if n < 1000 ^ 2 * d then (1000, .KB)
  else if n < 1000 ^ 3 * d then (1000 ^ 2, .MB)
  else if n < 1000 ^ 3 * d then (1000 ^ 2, .GB)
  else if n < 1000 ^ 4 * d then (1000 ^ 3, .GB)
  else (1000 ^ 4, .TB)

/-- The uptime in hours, minutes and seconds (ui/mod.rs 272-284); zero is shown as one second. -/
def uptime (t : Nat) : Nat × Nat × Nat :=
  let t := if t = 0 then 1 else t
  (t / 60 / 60, (t / 60) % 60, t % 60)

/-! ## Floating point -/

/-- A finite positive `f64` (or zero): `m * 2 ^ e` without bound on the exponent. Standard, not in /repo. -/
structure F64 where
  m : Nat
  e : Int
deriving DecidableEq, Repr

/-- The quotient of two numbers times a power of two, rounded to 53 bits, ties to even. Not in the code: IEEE 754 (normal numbers only). -/
def F64.round (n d : Nat) (e : Int) : F64 :=
  if n = 0 ∨ d = 0 then ⟨0, 0⟩ else
  -- scale so that the quotient has 53 bits
  let k : Int := (Nat.log2 n : Int) - (Nat.log2 d : Int) - 52
  let (n1, d1) := if 0 ≤ k then (n, d * 2 ^ k.toNat) else (n * 2 ^ (-k).toNat, d)
  let (n2, k2) := if n1 / d1 < 2 ^ 52 then (n1 * 2, k - 1) else (n1, k)
  let q := n2 / d1
  let r := n2 % d1
  let q := if d1 < 2 * r ∨ (2 * r = d1 ∧ q % 2 = 1) then q + 1 else q
  ⟨q, k2 + e⟩

/-- `n as f64`. Standard, not in /repo. -/
def F64.ofNat (n : Nat) : F64 := F64.round n 1 0

/-- Division. Standard, not in /repo. -/
def F64.div (a b : F64) : F64 := F64.round a.m b.m (a.e - b.e)

/-- Multiplication. Standard, not in /repo. -/
def F64.mul (a b : F64) : F64 := F64.round (a.m * b.m) 1 (a.e + b.e)

/-- `as usize`: towards zero. Standard, not in /repo. -/
def F64.toNat (a : F64) : Nat := if 0 ≤ a.e then a.m * 2 ^ a.e.toNat else a.m / 2 ^ (-a.e).toNat

/-- The success rate of tunnel builds in percent (ui/mod.rs 297-309). The sum of the two is below `2 ^ 64`. -/
def successRate (built failed : Nat) : Nat :=
  if built = 0 ∧ failed = 0 then 0
  else (((F64.ofNat built).div (F64.ofNat (built + failed))).mul (F64.ofNat 100)).toNat

end Emissary.Cli
