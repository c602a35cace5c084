/-!
# Stream listeners of a SAM session

Models `emissary-core/src/sam/protocol/streaming/listener.rs` (lines 138-630), the part of a SAM
session that keeps the sockets of `STREAM ACCEPT` and `STREAM FORWARD` clients.

Simplifications: a socket is an opaque identity `σ`; the pending routing path handle, which always
travels with the socket, is left out, as are wakers and logging.  The futures in `pending_sockets`
write `STREAM STATUS RESULT=OK` to the client; they complete in any order and either succeed or fail,
which the environment decides (`Op.wrote`).  A failed `debug_assert!` is recorded in `asserted`.
-/

namespace Emissary.Listener

/-- `ListenerKind` (lines 50-82): a registration request of a client. -/
inductive Kind (σ : Type)
  | accept (sock : σ) (silent : Bool)
  | forward (sock : σ) (port : Nat) (silent : Bool)

/-- `PendingListenerKind` (lines 138-151). -/
inductive PKind
  | accept
  | forward (port : Nat) (silent : Bool)
  deriving DecidableEq

/-- `ListenerState` (lines 174-218). -/
inductive State (σ : Type)
  | uninit
  | initializing (k : PKind)
  | ephemeral (sockets : List (σ × Bool))
  | persistent (sock : σ) (port : Nat) (silent : Bool)
  | poisoned

/-- `StreamListener` (lines 239-252); `pending` are the sockets whose status write is under way. -/
structure L (σ : Type) where
  state : State σ
  pending : List σ
  asserted : Bool

/-- `StreamListener::new` (lines 256-263). -/
def init {σ : Type} : L σ := ⟨.uninit, [], false⟩

/-- Result of `pop_socket`: an accept socket, a connection to the forward port, nothing, or the
`expect("to exist")` panic of line 278. -/
inductive Popped (σ : Type)
  | acceptSock (sock : σ) (silent : Bool)
  | forwardTo (port : Nat) (silent : Bool)
  | nothing
  | panic

/-- `pop_socket` (lines 273-321). -/
def popSocket {σ : Type} (l : L σ) : L σ × Popped σ :=
  match l.state with
  | .ephemeral [] => (l, .panic)
  | .ephemeral [(s, silent)] => ({ l with state := .uninit }, .acceptSock s silent)
  | .ephemeral ((s, silent) :: rest) => ({ l with state := .ephemeral rest }, .acceptSock s silent)
  | .persistent _ port silent => (l, .forwardTo port silent)
  | .uninit | .initializing _ | .poisoned => (l, .nothing)

/-- `validate_listener` (lines 330-372), whether the request fits the state. -/
def validate {σ : Type} (st : State σ) (k : Kind σ) : Bool :=
  match st, k with
  | .ephemeral _, .accept .. | .uninit, .accept .. | .initializing .accept, .accept .. => true
  | .uninit, .forward .. => true
  | _, _ => false

/-- `register_listener` (lines 397-557): `none` is `ListenerMismatch`, `some b` is `Ok(b)`. -/
def register {σ : Type} (l : L σ) (k : Kind σ) : L σ × Option Bool :=
  if validate l.state k then
    match l.state, k with
    | .uninit, .accept s true => ({ l with state := .ephemeral [(s, true)] }, some true)
    | .uninit, .accept s false =>
      ({ l with state := .initializing .accept, pending := l.pending ++ [s] }, some false)
    | .initializing .accept, .accept s true => ({ l with state := .ephemeral [(s, true)] }, some true)
    | .initializing .accept, .accept s false => ({ l with pending := l.pending ++ [s] }, some false)
    | .ephemeral ss, .accept s true => ({ l with state := .ephemeral (ss ++ [(s, true)]) }, some true)
    | .ephemeral _, .accept s false => ({ l with pending := l.pending ++ [s] }, some false)
    | .uninit, .forward s port silent =>
      ({ l with state := .initializing (.forward port silent), pending := l.pending ++ [s] }, some false)
    | _, _ => (l, none)
  else (l, none)

/-- A status write of `s` finished, `poll_next` (lines 563-629); `ok` says whether it succeeded. -/
def wrote {σ : Type} [DecidableEq σ] (l : L σ) (s : σ) (ok : Bool) : L σ :=
  if s ∈ l.pending then
    let l := { l with pending := l.pending.erase s }
    if ok then
      match l.state with
      | .uninit => { l with state := .ephemeral [(s, false)] }
      | .ephemeral ss => { l with state := .ephemeral (ss ++ [(s, false)]) }
      | .initializing .accept => { l with state := .ephemeral [(s, false)] }
      | .initializing (.forward port silent) => { l with state := .persistent s port silent }
      | .persistent .. | .poisoned => { l with state := .poisoned, asserted := true }
    else l
  else l

/-- Everything that can happen to a listener. Not in the code: the events that the theorems quantify over. -/
inductive Op (σ : Type)
  | register (k : Kind σ)
  | wrote (s : σ) (ok : Bool)
  | pop

/-- What the environment sees. Not in the code: the effects that can be observed. -/
inductive Out (σ : Type)
  | registered (k : Kind σ) (r : Option Bool)
  | wroteStatus (s : σ) (ok : Bool)
  | popped (p : Popped σ)
  | idle

/-- Not in the code: one event, handled by the definitions above. -/
def step {σ : Type} [DecidableEq σ] (l : L σ) : Op σ → L σ × Out σ
  | .register k => let (l', r) := register l k; (l', .registered k r)
  | .wrote s ok => (wrote l s ok, if s ∈ l.pending then .wroteStatus s ok else .idle)
  | .pop => let (l', p) := popSocket l; (l', .popped p)

/-- Not in the code: a fold of the steps. -/
def run {σ : Type} [DecidableEq σ] (l : L σ) : List (Op σ) → L σ × List (Out σ)
  | [] => (l, [])
  | op :: ops =>
    let (l1, o) := step l op
    let (l2, os) := run l1 ops
    (l2, o :: os)

end Emissary.Listener
