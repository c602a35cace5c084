import Verif.Model.Bytes
/-!
# Shutting the router down

`emissary-core/src/shutdown.rs`: the router tells each subsystem that holds a handle, and waits
until every one of them has answered. Handles are numbered in the order they are given out. The
channels are those of the `futures` crate: whoever waits for the answer of a subsystem learns that
it was sent, or that the other side is gone; the model does not tell the two apart, as the code does
not (`let _ = rx.await`, 133). Waking up tasks is not modelled.
-/
namespace Emissary.Shutdown

/-- `ShutdownContext` (85-97) together with the handles it gave out. -/
structure State where
  /-- Handles given out so far. -/
  created : Nat := 0
  /-- `handles`: handles not told yet. -/
  handles : List Nat := []
  /-- Handles whose subsystem was told. -/
  told : List Nat := []
  /-- `futures`: handles whose answer is awaited. -/
  waiting : List Nat := []
  /-- `ShutdownContext::shutting_down`. -/
  shuttingDown : Bool := false
  /-- Handles that have seen the notice: `ShutdownHandle::shutting_down`, `tx` is set. -/
  seen : List Nat := []
  /-- Handles whose subsystem has answered. -/
  answered : List Nat := []
  /-- Handles that were dropped. -/
  dropped : List Nat := []
deriving DecidableEq, Repr

/-- What happens: the router asks for a handle, asks for the shutdown, polls the context; a
subsystem polls its handle, says it is done, or drops its handle. Not in the code: the events that the theorems quantify over. -/
inductive Op
  | handle
  | shutdown
  | pollContext
  | poll (i : Nat)
  | answer (i : Nat)
  | drop (i : Nat)
deriving DecidableEq, Repr

/-- The answer of handle `i` is no longer to be waited for. shutdown.rs 85-97. -/
def State.done (s : State) (i : Nat) : Bool := decide (i ∈ s.answered) || decide (i ∈ s.dropped)

/-- One step. A subsystem can only use a handle it has. Not in the code: one event, handled by the definitions above. -/
def State.step (s : State) : Op → State
  -- `ShutdownContext::handle` (111-120)
  | .handle => { s with created := s.created + 1, handles := s.handles ++ [s.created] }
  -- `ShutdownContext::shutdown` (123-141): the send fails if the handle is gone
  | .shutdown =>
    { s with
      shuttingDown := true
      handles := []
      told := s.told ++ s.handles
      waiting := s.waiting ++ s.handles.filter fun i => !decide (i ∈ s.dropped) }
  -- `ShutdownContext::poll` (147-154): finished futures leave the set
  | .pollContext => { s with waiting := s.waiting.filter fun i => !s.done i }
  -- `ShutdownHandle::poll` (66-81)
  | .poll i =>
    if i ∈ s.told ∧ i ∉ s.dropped then { s with seen := i :: s.seen } else s
  -- `ShutdownHandle::shutdown` (56-60): nothing to answer before the notice was seen
  | .answer i =>
    if i ∈ s.seen ∧ i ∉ s.dropped then { s with answered := i :: s.answered } else s
  | .drop i => if i < s.created then { s with dropped := i :: s.dropped } else s

/-- A run from the start. Not in the code: a fold of the steps. -/
def run (os : List Op) : State := os.foldl State.step {}

/-- Whether polling the context now gives `Ready` (147-158). -/
def State.ready (s : State) : Bool := s.shuttingDown && s.waiting.all s.done

/-- Whether polling handle `i` now gives `Ready` (66-81): the notice is there and was not seen. -/
def State.notice (s : State) (i : Nat) : Bool :=
  decide (i ∈ s.told) && !decide (i ∈ s.dropped) && !decide (i ∈ s.seen)

end Emissary.Shutdown
