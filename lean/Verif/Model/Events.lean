import Verif.Model.Shutdown
/-!
# What the router tells the program that embeds it

`emissary-core/src/events.rs` (status numbers, destinations that came up, the two shutdown events)
and the parts of `emissary-core/src/router/mod.rs` that ask for the shutdown and decide when the
router has ended. Clones of an `EventHandle` share their counters and their channel (94-109), so one
state stands for all of them.
-/
namespace Emissary.Events

/-- The six shared counters (69-84), as they appear in a status event (200-226). They are
`AtomicUsize`: 64 bits here, and adding wraps. -/
structure Numbers where
  transitTunnels : Nat := 0
  transitBandwidth : Nat := 0
  routers : Nat := 0
  bandwidth : Nat := 0
  built : Nat := 0
  failed : Nat := 0
deriving DecidableEq, Repr

/-- `SubsystemEvent` (40-55). -/
inductive Start
  | client (name : String)
  | server (name address : String)
deriving DecidableEq, Repr

/-- Not in the code: a helper of the model. -/
def Start.client? : Start → Option String
  | .client n => some n
  | .server _ _ => none
/-- Not in the code: a helper of the model. -/
def Start.server? : Start → Option (String × String)
  | .client _ => none
  | .server n a => some (n, a)

/-- `Event` (229-254). -/
inductive Event
  | status (clients : List String) (servers : List (String × String)) (numbers : Numbers)
  | shuttingDown
  | shutDown
deriving DecidableEq, Repr

/-- `State` (257-266). -/
inductive Phase
  | active
  | shuttingDown
  | shutDown
deriving DecidableEq, Repr

/-- `EventManager` (269-292) with its two channels. `seen` is what the embedding program has taken
out of the status channel so far, oldest first. -/
structure State where
  numbers : Numbers := {}
  /-- the channel `event_rx`, 64 places (299) -/
  starts : List Start := []
  clients : List String := []
  servers : List (String × String) := []
  phase : Phase := .active
  /-- the channel `status_tx`, 64 places (300) -/
  queue : List Event := []
  seen : List Event := []
deriving DecidableEq, Repr

/-- What happens. `poll timer`: the router polls the manager; `timer`: the update timer has fired.
Not in the code: the events that the theorems quantify over. -/
inductive Op
  | setTransitTunnels (n : Nat)
  | addTransitBandwidth (n : Nat)
  | setRouters (n : Nat)
  | addBandwidth (n : Nat)
  | addTunnels (built failed : Nat)
  | start (d : Start)
  | poll (timer : Bool)
  | shutdown
  /-- the embedding program takes the next event -/
  | read
deriving DecidableEq, Repr

/-- `status_tx.try_send(event)`: dropped when the channel is full. Standard or external library, not in /repo. -/
def State.emit (s : State) (e : Event) : State :=
  if s.queue.length < 64 then { s with queue := s.queue ++ [e] } else s

/-- The loop of `EventManager::poll` (365-376). -/
def State.drain (s : State) : State :=
  { s with
    starts := []
    clients := s.clients ++ s.starts.filterMap Start.client?
    servers := s.servers ++ s.starts.filterMap Start.server? }

/-- The timer has fired (378-406). -/
def State.tick (s : State) : State :=
  { s with clients := [], servers := [] }.emit (.status s.clients s.servers s.numbers)

/-- One step. Not in the code: one event, handled by the definitions above. -/
def State.step (s : State) : Op → State
  -- 117-119
  | .setTransitTunnels n => { s with numbers := { s.numbers with transitTunnels := n } }
  -- 125-127
  | .addTransitBandwidth n => { s with numbers :=
      { s.numbers with transitBandwidth := (s.numbers.transitBandwidth + n) % 2 ^ 64 } }
  -- 141-143
  | .setRouters n => { s with numbers := { s.numbers with routers := n } }
  -- 133-135
  | .addBandwidth n => { s with numbers :=
      { s.numbers with bandwidth := (s.numbers.bandwidth + n) % 2 ^ 64 } }
  -- 149-153
  | .addTunnels b f => { s with numbers :=
      { s.numbers with built := (s.numbers.built + b) % 2 ^ 64,
                       failed := (s.numbers.failed + f) % 2 ^ 64 } }
  -- 156-165: `try_send`
  | .start d => if s.starts.length < 64 then { s with starts := s.starts ++ [d] } else s
  -- 361-410
  | .poll timer => if timer then s.drain.tick else s.drain
  -- 341-355
  | .shutdown => match s.phase with
    | .active => { s.emit .shuttingDown with phase := .shuttingDown }
    | .shuttingDown => { s.emit .shutDown with phase := .shutDown }
    | .shutDown => s
  -- `EventSubscriber::router_status` (431-433)
  | .read => match s.queue with
    | [] => s
    | e :: q => { s with queue := q, seen := s.seen ++ [e] }

/-- A run from the start. Not in the code: a fold of the steps. -/
def run (os : List Op) : State := os.foldl State.step {}

end Emissary.Events

namespace Emissary.Router
open Emissary

/-- `Router` (router/mod.rs 89-130): the number of requests to shut down, the shutdown context with
the one handle that `Router::new` gives out, to the transit manager, and the event manager. -/
structure State where
  count : Nat := 0
  shutdown : Shutdown.State := Shutdown.run [.handle]
  events : Events.State := {}
  /-- the router future has returned `Ready` -/
  over : Bool := false
deriving DecidableEq, Repr

/-- What happens. Not in the code: the events that the theorems quantify over. -/
inductive Op
  /-- `Router::shutdown` -/
  | request
  /-- the router is polled; `timer`: the status timer has fired, `ended`: the transports have ended -/
  | poll (timer ended : Bool)
  /-- the transit manager polls its handle -/
  | look
  /-- the transit manager says it is done -/
  | answer
  /-- the transit manager's task is gone -/
  | drop
  /-- another subsystem reports a number or a destination, or the program takes an event -/
  | event (e : Events.Op)
deriving DecidableEq, Repr

/-- `Router::poll` (465-488). The event manager holds a sender of its own channel, so its `Ready`
(368) does not occur. -/
def State.poll (s : State) (timer ended : Bool) : State :=
  if 2 ≤ s.count then { s with over := true }
  else if s.shutdown.ready then { s with over := true }
  else
    { s with
      shutdown := s.shutdown.step .pollContext
      events := s.events.step (.poll timer)
      over := ended }

/-- One step. Nobody polls a future that has returned `Ready`. Not in the code: one event, handled by the definitions above. -/
def State.step (s : State) : Op → State
  -- `Router::shutdown` (425-443)
  | .request =>
    let s := { s with count := s.count + 1 }
    if s.count = 1 then
      { s with shutdown := s.shutdown.step .shutdown, events := s.events.step .shutdown }
    else s
  | .poll timer ended => if s.over then s else s.poll timer ended
  | .look => { s with shutdown := s.shutdown.step (.poll 0) }
  | .answer => { s with shutdown := s.shutdown.step (.answer 0) }
  | .drop => { s with shutdown := s.shutdown.step (.drop 0) }
  -- only the router itself polls its event manager and shuts it down
  | .event (.poll _) | .event .shutdown => s
  | .event e => { s with events := s.events.step e }

/-- A run from the start. Not in the code: a fold of the steps. -/
def run (os : List Op) : State := os.foldl State.step {}

end Emissary.Router
