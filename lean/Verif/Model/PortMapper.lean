/-!
# Port forwarding

Models `emissary-cli/src/port_mapper/{mod,nat_pmp,upnp}.rs`. Simplifications: the gateway, the network
and time are oracles: each operation is given with the time it takes, counted in whole windows of five
seconds, and its result; what the event loops do is a list of outputs; the bounded address channel never
blocks; answers to mapping requests are only logged by the code and have no content here. A future that
has finished and is polled again panics, as the futures made by `async` blocks do; a timer of tokio that
has fired and is polled again is ready.
-/
namespace Emissary.PortMapper

/-- Not in the code: a helper of the model. -/
abbrev Addr := Nat

/-- Not in the code: a helper of the model. -/
inductive Proto where
  | tcp | udp
deriving DecidableEq

/-- An operation in progress: it never ends, it ends after some windows, or it has ended.
Not in the code: what the model takes as given, for every value of it. -/
inductive Fut (α : Type) where
  | never
  | after (windows : Nat) (result : Option α)
  | finished

/-- The result of `with_retries_and_timeout`. emissary-cli/src/port_mapper/nat_pmp.rs 92. -/
inductive Await (α : Type) where
  | ok (a : α)
  | failed
  | panics

/-- `with_retries_and_timeout` (nat_pmp.rs:88-111, upnp.rs:91-114): the same future is polled in every
round. -/
def rounds : Nat → Fut α → Await α
  | 0, _ => .failed
  | _ + 1, .finished => .panics
  | n + 1, .never => rounds n .never
  | _ + 1, .after 0 (some a) => .ok a
  | n + 1, .after 0 none => rounds n .finished
  | n + 1, .after (w + 1) r => rounds n (.after w r)

/-- `NUM_RETRIES` rounds (nat_pmp.rs:37, upnp.rs:48). -/
def retried (f : Fut α) : Await α := rounds 3 f

/-- What a port mapper does. Not in the code: the effects that can be observed. -/
inductive Out where
  /-- Ask the gateway to forward an external port to an internal port, for some seconds (0: for ever). -/
  | map (p : Proto) (ext int : Nat) (life : Nat)
  | unmap (p : Proto) (ext : Nat)
  /-- Ask the gateway for the external address. -/
  | ask
  /-- Tell the router an external address. -/
  | report (a : Addr)
  /-- Tell the router that the ports are unmapped. -/
  | ack
  | startUpnp
  | panic
  /-- The port mapper ends. -/
  | ended
deriving DecidableEq

/-- The configuration and the ports of the transports (nat_pmp.rs:54-68). -/
structure Ports where
  natPmp : Bool
  upnp : Bool
  ntcp2 : Option Nat
  ssu2 : Option Nat

/-- What may wake up the event loop. Not in the code: the events that the theorems quantify over. -/
inductive Ev where
  /-- The router shuts down and waits for an answer. -/
  | shutdown
  /-- The router is gone. -/
  | dropped
  /-- The timer for the address has fired; the answer of the gateway, `some none` if it is of no use. -/
  | address (f : Fut (Option Addr))
  /-- The timer for the mappings has fired (NAT-PMP only). -/
  | remap (f g : Fut Unit)

/-! ## NAT-PMP -/

/-- `PORT_MAPPING_LIFETIME` (nat_pmp.rs:39-42). -/
def lifetime : Nat := 60 * 60

/-- `try_map_ntcp2` (nat_pmp.rs:143-174); `none` if NTCP2 is not enabled. -/
def natNtcp2 (c : Ports) (f : Fut Unit) : List Out × Option (Await Unit) :=
  match c.ntcp2 with
  | none => ([], none)
  | some p => ([.map .tcp p p lifetime], some (retried f))

/-- `try_map_ssu2` (nat_pmp.rs:176-207). -/
def natSsu2 (c : Ports) (f : Fut Unit) : List Out × Option (Await Unit) :=
  match c.ssu2 with
  | none => ([], none)
  | some p => ([.map .tcp p p lifetime], some (retried f))

/-- `try_switch_to_upnp` (nat_pmp.rs:113-141). -/
def switch (c : Ports) : List Out := if c.upnp then [.startUpnp] else [.ended]

/-- The event loop of NAT-PMP (nat_pmp.rs:283-349). -/
def natLoop (c : Ports) (cur : Addr) : List Ev → List Out
  | [] => []
  | .shutdown :: _ => [.ack, .ended]
  | .dropped :: _ => [.ended]
  | .address f :: es => .ask :: match retried f with
    | .panics => [.panic]
    | .failed => natLoop c cur es
    | .ok none => natLoop c cur es
    | .ok (some a) => if a ≠ cur then .report a :: natLoop c a es else natLoop c cur es
  | .remap f g :: es =>
    let (o1, r1) := natNtcp2 c f
    let (o2, r2) := natSsu2 c g
    match r1 with
    | some .panics => o1 ++ [.panic]
    | _ => match r2 with
      | some .panics => o1 ++ o2 ++ [.panic]
      | _ => o1 ++ o2 ++ natLoop c cur es

/-- `run` (nat_pmp.rs:234-351): the client, the mappings, the address, and the event loop. -/
def natRun (c : Ports) (client f g : Fut Unit) (a : Fut (Option Addr)) (es : List Ev) : List Out :=
  match retried client with
  | .panics => [.panic]
  | .failed => switch c
  | .ok () =>
    let (o1, r1) := natNtcp2 c f
    match r1 with
    | some .panics => o1 ++ [.panic]
    | some .failed => o1 ++ switch c
    | _ =>
      let (o2, r2) := natSsu2 c g
      match r2 with
      | some .panics => o1 ++ o2 ++ [.panic]
      | some .failed => o1 ++ o2 ++ switch c
      | _ => o1 ++ o2 ++ .ask :: match retried a with
        | .panics => [.panic]
        | .failed => switch c
        | .ok none => switch c
        | .ok (some x) => .report x :: natLoop c x es

/-! ## UPnP -/

/-- `try_map_ntcp2` and `try_map_ssu2` (upnp.rs:116-190). -/
def upnpMap (p : Proto) (port : Option Nat) (f : Fut Unit) : List Out × Option (Await Unit) :=
  match port with
  | none => ([], none)
  | some n => ([.map p n n 0], some (retried f))

/-- The mappings are removed (upnp.rs:269-279, 285-295). -/
def upnpUnmap (c : Ports) : List Out :=
  (match c.ssu2 with | none => [] | some n => [.unmap .udp n]) ++
  (match c.ntcp2 with | none => [] | some n => [.unmap .tcp n])

/-- The event loop of UPnP (upnp.rs:258-322). After the router is gone the loop goes on and polls the
finished shutdown channel again. -/
def upnpLoop (c : Ports) (cur : Option Addr) : List Ev → List Out
  | [] => []
  | .shutdown :: _ => upnpUnmap c ++ [.ack, .ended]
  | .dropped :: _ => upnpUnmap c ++ [.panic]
  | .address f :: es => .ask :: match retried f with
    | .panics => [.panic]
    | .failed => upnpLoop c cur es
    | .ok none => upnpLoop c cur es
    | .ok (some a) => if some a ≠ cur then .report a :: upnpLoop c (some a) es else upnpLoop c cur es
  | .remap _ _ :: es => upnpLoop c cur es

/-- `run` (upnp.rs:192-324); `found` is false if there is no local address or no gateway. -/
def upnpRun (c : Ports) (found : Bool) (f g : Fut Unit) (a : Fut (Option Addr)) (es : List Ev) : List Out :=
  if found = false then [.ended] else
  let (o1, r1) := upnpMap .tcp c.ntcp2 f
  match r1 with
  | some .panics => o1 ++ [.panic]
  | _ =>
    let (o2, r2) := upnpMap .udp c.ssu2 g
    match r2 with
    | some .panics => o1 ++ o2 ++ [.panic]
    | _ => o1 ++ o2 ++ .ask :: match retried a with
      | .panics => [.panic]
      | .failed => upnpLoop c none es
      | .ok none => upnpLoop c none es
      | .ok (some x) => .report x :: upnpLoop c (some x) es

/-! ## Timers -/

/-- `ADDRESS_REFRESH_TIMER`, in seconds (nat_pmp.rs:44-47, upnp.rs:50-53). -/
def refresh : Nat := 5 * 60

/-- The times at which NAT-PMP asks for the address when the loop is idle: the timer is set anew after
each question (nat_pmp.rs:299-318). `start` is when the timer was set; the list has how long each answer
took. -/
def natAsks (start : Nat) : List Nat → List Nat
  | [] => []
  | d :: ds => (start + refresh) :: natAsks (start + refresh + d) ds

/-- The times at which UPnP asks (upnp.rs:256, 298-320): the timer is set once, and is ready from then on.
`now` is when the loop waits, `deadline` when the timer fires. -/
def upnpAsks (deadline now : Nat) : List Nat → List Nat
  | [] => []
  | d :: ds => max now deadline :: upnpAsks deadline (max now deadline + d) ds

/-! ## Choice of the protocol -/

/-- `PortMapper::new` (mod.rs:55-116): what is started. -/
inductive Started where
  | nothing | natPmp | upnp
deriving DecidableEq

/-- emissary-cli/src/port_mapper/mod.rs 55-116. -/
def start (c : Option Ports) : Started :=
  match c with
  | none => .nothing
  | some c => if c.upnp = false ∧ c.natPmp = false then .nothing else if c.natPmp then .natPmp else .upnp

end Emissary.PortMapper
