import Verif.Model.Primitives
import Verif.Model.Util
/-!
# Local addresses, dialling and the sockets of the transports

Models `transport/ntcp2/{mod,listener}.rs`, `transport/ssu2/{mod,socket}.rs` (`connect` and the loop over outgoing packets),
`transport/mod.rs` (`add_external_address`, the choice of the transport to dial with, the end of the manager), the end of
`Router::poll` in `router/mod.rs`, and the sockets of `/repo/emissary-util/src/runtime/tokio.rs`. The packets and handshakes themselves are in
`Ntcp2Handshake` and `Ssu2Handshake`. Base64, the public key of a static key and the text of an address are parameters.
-/
namespace Emissary.Net
open Emissary Emissary.Prim

/-! ## The local router info -/

/-- `u16::to_string`. -/
def dec (n : Nat) : Bytes :=
  if h : n < 10 then [UInt8.ofNat (48 + n)] else dec (n / 10) ++ [UInt8.ofNat (48 + n % 10)]
termination_by n

/-- The option names "v", "s" and "i" and the value "2" (router_address.rs 100-188). -/
def kV : Str := [0x76]
/-- router_address.rs 100-188. -/
def kS : Str := [0x73]
/-- router_address.rs 100-188. -/
def kI : Str := [0x69]
/-- router_address.rs 100-188. -/
def two : Str := [0x32]

/-- `base64_encode`, `base64_decode`, `StaticPrivateKey::public` and `Ipv4Addr::to_string`. -/
structure Enc where
  b64 : Bytes → Str
  unb64 : Str → Option Bytes
  pub : Bytes → Bytes
  ipText : Bytes → Str

/-- `Ntcp2Config` and `Ssu2Config` (config.rs 24-60): `iv` is the IV of NTCP2 or the introduction key of SSU2. -/
structure Cfg where
  port : Nat
  host : Option Bytes
  publish : Bool
  key : Bytes
  iv : Bytes
deriving Repr, DecidableEq

/-- `RouterAddress::new_unpublished_ntcp2`, `new_unpublished_ssu2` (router_address.rs 95-110, 133-158). -/
def unpublished (C : Enc) (t : Transport) (c : Cfg) (port : Nat) : RouterAddress :=
  { cost := 14, expires := 0, transport := t
    options := Options.ofList ([⟨kV, two⟩, ⟨kS, C.b64 (C.pub c.key)⟩] ++
      (match t with | .ntcp2 => [] | .ssu2 => [⟨kI, C.b64 c.iv⟩]))
    socket := some ([127, 0, 0, 1], port) }

/-- `RouterAddress::new_published_ntcp2`, `new_published_ssu2` (router_address.rs 113-130, 161-193). -/
def published (C : Enc) (t : Transport) (c : Cfg) (port : Nat) (host : Bytes) : RouterAddress :=
  { cost := 10, expires := 0, transport := t
    options := Options.ofList [⟨kV, two⟩, ⟨kS, C.b64 (C.pub c.key)⟩, ⟨kHost, C.ipText host⟩, ⟨kPort, dec port⟩,
      ⟨kI, C.b64 c.iv⟩]
    socket := some (host, port) }

/-- The address of `Ntcp2Transport::initialize` (ntcp2/mod.rs 176-191) and `Ssu2Transport::initialize` (ssu2/mod.rs 158-181).
`bound` is the port of the socket. -/
def initial (C : Enc) (t : Transport) (c : Cfg) (bound : Nat) : RouterAddress :=
  match c.publish, c.host with
  | true, some host => published C t c bound host
  | _, _ => unpublished C t c bound

/-- What `TransportManager` keeps for `add_external_address` (transport/mod.rs 559-605): the configurations, the address it was
told, and the addresses of the local router info. -/
structure Local where
  ntcp2 : Option Cfg
  ssu2 : Option Cfg
  external : Option Bytes := none
  addresses : Addresses
deriving Repr, DecidableEq

/-- `Router::new` (router/mod.rs 166-199, 398-406) with the ports the sockets were bound to. `none`: no transport is enabled
(173-179). -/
def Local.start (C : Enc) (ntcp2 ssu2 : Option Cfg) (bound : Transport → Nat) : Option Local :=
  if ntcp2.isNone && ssu2.isNone then none
  else some
    { ntcp2 := ntcp2, ssu2 := ssu2
      addresses :=
        { ntcp2 := ntcp2.map fun c => initial C .ntcp2 c (bound .ntcp2)
          ssu2 := ssu2.map fun c => initial C .ssu2 c (bound .ssu2) } }

/-- The update of one transport's address (transport/mod.rs 654-680 and 682-708). -/
def reached (C : Enc) (t : Transport) (cfg : Option Cfg) (ip : Bytes) (old : Option RouterAddress) : Option RouterAddress :=
  match cfg with
  | some c => if c.publish = true ∧ c.host = none then some (published C t c c.port ip) else old
  | none => old

/-- `TransportManager::add_external_address` (transport/mod.rs 624-709). -/
def Local.addExternal (C : Enc) (s : Local) (ip : Bytes) : Local :=
  if s.external = some ip then s
  else
    { s with
      external := some ip
      addresses :=
        { ntcp2 := reached C .ntcp2 s.ntcp2 ip s.addresses.ntcp2
          ssu2 := reached C .ssu2 s.ssu2 ip s.addresses.ssu2 } }

/-! ## Dialling -/

/-- An option of an address, decoded from base64 and of the given length: `ssu2_intro_key`, `ssu2_static_key`,
`ntcp2_static_key`, `ntcp2_iv` (router_info.rs 360-389; `StaticPublicKey::from_bytes`, crypto/mod.rs 96-100). -/
def keyOf (C : Enc) (a : Option RouterAddress) (k : Str) (len : Nat) : Option Bytes := do
  let a ← a
  let text ← a.options.get k
  let b ← C.unb64 text
  if b.length = len then some b else none

/-- What a dial comes to. Not in the code: the effects that can be observed. -/
inductive Dial where
  /-- packets are sent to the address, for the router with this static key -/
  | dials (t : Transport) (ip : Bytes) (port : Nat) (key : Bytes)
  /-- the failure is reported -/
  | fails
  /-- `expect` fails in `TransportManager::poll`, that is, in `Router::poll` -/
  | panic
deriving Repr, DecidableEq

/-- `SessionManager::create_session_inner` up to the dial (ntcp2/session/mod.rs 176-219). -/
def dialNtcp2 (C : Enc) (allowLocal : Bool) (r : RouterInfo) : Dial :=
  match keyOf C r.addresses.ntcp2 kS 32 with
  | none => .fails
  | some key =>
    match keyOf C r.addresses.ntcp2 kI 16 with
    | none => .fails
    | some _ =>
      match r.addresses.ntcp2.bind (·.socket) with
      | none => .fails
      | some (ip, port) =>
        if ip.length = 4 ∧ Util.isGlobal (unbe ip) = false ∧ allowLocal = false then .fails
        else .dials .ntcp2 ip port key

/-- `Ssu2Socket::connect` (ssu2/socket.rs 276-330). -/
def dialSsu2 (C : Enc) (r : RouterInfo) : Dial :=
  match keyOf C r.addresses.ssu2 kI 32 with
  | none => .panic
  | some _ =>
    match keyOf C r.addresses.ssu2 kS 32 with
    | none => .panic
    | some key =>
      match r.addresses.ssu2.bind (·.socket) with
      | none => .panic
      | some (ip, port) => .dials .ssu2 ip port key

/-- `transports` in the order `Router::new` registers them (router/mod.rs 398-406). -/
def transports (ntcp2 ssu2 : Bool) : List Transport :=
  (if ntcp2 then [.ntcp2] else []) ++ (if ssu2 then [.ssu2] else [])

/-- `self.transports[0].connect(router_info)` (transport/mod.rs 745). -/
def dial (C : Enc) (allowLocal : Bool) (ts : List Transport) (r : RouterInfo) : Dial :=
  match ts with
  | .ntcp2 :: _ => dialNtcp2 C allowLocal r
  | .ssu2 :: _ => dialSsu2 C r
  | [] => .panic

/-! ## The NTCP2 transport -/

/-- Not in the code: a helper of the model. -/
abbrev RouterId := Bytes

/-- What `poll_accept` has for the listener (tokio.rs 169-188): a connection from an address, or an error. A connection whose
`TCP_NODELAY` cannot be set is skipped in the runtime and does not appear. -/
inductive Arrival where
  | conn (id : Nat) (ip : Bytes)
  | error
deriving Repr, DecidableEq

/-- How a handshake ends (ntcp2/mod.rs 304-345; tokio.rs 266: a task that panicked). -/
inductive Shake where
  | opened (inbound : Bool) (r : RouterId)
  | failed (r : RouterId)
  | refused
  | panicked
deriving Repr, DecidableEq

/-- How the task of an open connection ends. Result of transport/ntcp2/session/active.rs `run`, or a panic of the task. -/
inductive Close where
  | closed (r : RouterId)
  | panicked
deriving Repr, DecidableEq

/-- `TransportEvent`. transport/mod.rs 209. -/
inductive Event where
  | established (inbound : Bool) (r : RouterId)
  | failure (r : RouterId)
  | closed (r : RouterId)
deriving Repr, DecidableEq

/-- `Ntcp2Transport` (ntcp2/mod.rs 79-106), with what is ready for it: `arrivals` in the backlog of the listener, `ends` of
connections and `shakes` that finished. `running` are handshakes that did not finish. `stored` says whether
`TokioJoinSet` of the handshakes holds a waker (tokio.rs 232, 252-255, 263). -/
structure Ntcp2 where
  allowLocal : Bool := false
  arrivals : List Arrival := []
  running : List Nat := []
  shakes : List Shake := []
  ends : List Close := []
  pending : List RouterId := []
  stored : Bool := false
deriving Repr, DecidableEq

/-- `Poll<Option<TransportEvent>>`. Standard or external library, not in /repo. -/
inductive Poll where
  | pending
  | ended
  | event (e : Event)
deriving Repr, DecidableEq

/-- The addresses the listener turns away (ntcp2/listener.rs 69-77). -/
def turnedAway (allowLocal : Bool) (ip : Bytes) : Bool :=
  decide (ip.length = 4) && !Util.isGlobal (unbe ip) && !allowLocal

/-- What the listener gives: a connection, the end, or nothing. transport/ntcp2/listener.rs 69-77. -/
inductive Heard where
  | nothing
  | ended
  | conn (id : Nat)
deriving Repr, DecidableEq

/-- `Ntcp2Listener::poll_next` (ntcp2/listener.rs 63-81): what is left in the backlog, and what comes out. -/
def listen (allowLocal : Bool) : List Arrival → List Arrival × Heard
  | [] => ([], .nothing)
  | .error :: rest => (rest, .ended)
  | .conn id ip :: rest => if turnedAway allowLocal ip then listen allowLocal rest else (rest, .conn id)

/-- The handshakes (ntcp2/mod.rs 298-350). The flag says whether the waker was called while polling. -/
def Ntcp2.shake (s : Ntcp2) (woke : Bool) : Ntcp2 × Poll × Bool :=
  if s.running.isEmpty && s.shakes.isEmpty then (s, .pending, woke)
  else match s.shakes with
    | [] => ({ s with stored := true }, .pending, woke)
    | .opened inbound r :: rest =>
      ({ s with shakes := rest, pending := s.pending ++ [r] }, .event (.established inbound r), woke)
    | .failed r :: rest => ({ s with shakes := rest }, .event (.failure r), woke)
    | .refused :: rest => ({ s with shakes := rest }, .pending, woke)
    | .panicked :: rest => ({ s with shakes := rest }, .ended, woke)

/-- `Ntcp2Transport::poll_next` (ntcp2/mod.rs 274-350). -/
def Ntcp2.poll (s : Ntcp2) : Ntcp2 × Poll × Bool :=
  match s.ends with
  | .panicked :: rest => ({ s with ends := rest }, .ended, false)
  | .closed r :: rest => ({ s with ends := rest }, .event (.closed r), false)
  | [] =>
    match listen s.allowLocal s.arrivals with
    | (rest, .ended) => ({ s with arrivals := rest }, .ended, false)
    | (rest, .nothing) => Ntcp2.shake { s with arrivals := rest } false
    | (rest, .conn id) =>
      Ntcp2.shake { s with arrivals := rest, running := s.running ++ [id], stored := false } s.stored

/-- What happens to the transport between polls: a connection arrives, a running handshake finishes, a dial starts, the
manager accepts or rejects a session (ntcp2/mod.rs 210-270), a connection ends. -/
inductive Step where
  | arrive (a : Arrival)
  | finish (id : Nat) (how : Shake)
  | connect (id : Nat)
  | accept (r : RouterId)
  | reject (r : RouterId)
  | close (how : Close)
  | poll
deriving Repr, DecidableEq

/-- One step, with the result of a poll. Not in the code: one event, handled by the definitions above. -/
def Ntcp2.step (s : Ntcp2) : Step → Ntcp2 × Option Poll
  | .arrive a => ({ s with arrivals := s.arrivals ++ [a] }, none)
  | .finish id how => ({ s with running := s.running.erase id, shakes := s.shakes ++ [how] }, none)
  | .connect id => ({ s with running := s.running ++ [id], stored := false }, none)
  | .accept r => ({ s with pending := s.pending.filter (· ≠ r) }, none)
  | .reject r => ({ s with pending := s.pending.filter (· ≠ r) }, none)
  | .close how => ({ s with ends := s.ends ++ [how] }, none)
  | .poll => ((s.poll).1, some (s.poll).2.1)

/-- A history: the state it leads to and the results of its polls. Not in the code: a fold of the steps. -/
def Ntcp2.run (s : Ntcp2) : List Step → Ntcp2 × List Poll
  | [] => (s, [])
  | x :: xs =>
    let r := s.step x
    let rest := r.1.run xs
    (rest.1, r.2.toList ++ rest.2)

/-! ## The SSU2 socket's outgoing packets -/

/-- `poll_send_to` (tokio.rs 202-209): sent, refused with an error (`none`), or not now. -/
inductive Send where
  | sent
  | error
  | later
deriving Repr, DecidableEq

/-- The loop over `pending_pkts` (ssu2/socket.rs 534-558), `WriteState` being the packet at the head of the queue. The network
answers each attempt from `net`; with no answer left it says `later`. The results: the packets left, the packets
sent, whether the stream ends. -/
def sendAll {α : Type} : List α → List Send → List α × List α × Bool
  | [], _ => ([], [], false)
  | p :: ps, [] => (p :: ps, [], false)
  | p :: ps, .later :: _ => (p :: ps, [], false)
  | _ :: ps, .error :: _ => (ps, [], true)
  | p :: ps, .sent :: net =>
    let r := sendAll ps net
    (r.1, p :: r.2.1, r.2.2)

/-! ## The end of the router -/

/-- `TransportManager::poll` over its transports (transport/mod.rs 804-902) and `Router::poll` (router/mod.rs 482-485): the first
transport whose stream ends ends the manager and with it the router. `drained` gives for each transport whether its stream ended
while it was polled. -/
def routerEnds (drained : List Bool) : Bool := drained.any id

end Emissary.Net
