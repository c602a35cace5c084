import Verif.Model.Bytes
import Verif.Model.OMap
/-!
# Receive half of an active I2P stream

Models `emissary-core/src/sam/protocol/streaming/stream/active.rs`:
`InboundContext` (329-353), `InboundContext::new` (357-368), `handle_packet` (371-451), `pop_message`
(453-455), `can_close` (465-467) and the part of `Stream::poll` that moves payloads to the client socket
(1164-1265), CLOSE handling (832-846) and the plain-ACK branch
(1380-1433).

Simplifications: the ACK timer, RTT and tracing are omitted (they do not influence the payload data);
`u32` arithmetic is on `Nat` with an explicit `panic` outcome where `self.seq_nro + 1` overflows.
-/
namespace Emissary.Stream

/-- `MAX_WINDOW_SIZE`, active.rs:68. -/
def maxWindowSize : Nat := 128
/-- `MAX_WINDOW_LOOKAHEAD`, active.rs:71. -/
def maxLookahead : Nat := 4 * maxWindowSize
/-- `MAX_NACKS`, active.rs:77. -/
def maxNacks : Nat := 255

/-- `InboundContext`, active.rs:329-353. -/
structure Inbound where
  /-- highest received sequence number (`seq_nro`) -/
  cur : Nat
  /-- `missing: BTreeSet<u32>` -/
  missing : OSet
  /-- `pending: BTreeMap<u32, Vec<u8>>` -/
  pending : OMap Bytes
  /-- `ready: VecDeque<Vec<u8>>` -/
  ready : List Bytes
  /-- `close_requested` -/
  closeRequested : Bool := false
deriving Repr, DecidableEq

/-- `InboundContext::new`, active.rs:357-368. -/
def Inbound.new (seq : Nat) : Inbound := { cur := seq, missing := [], pending := [], ready := [] }

/-- Result of `handle_packet`: `Ok(())`, `Err(SequenceNumberTooHigh)`, or an arithmetic-overflow panic. Result of active.rs 371-460. -/
inductive RxResult where
  | ok (s : Inbound)
  | tooHigh
  | panic
deriving Repr, DecidableEq

/-- The state after success (for stating examples; a fresh state otherwise). Not in the code: a helper of the model. -/
def RxResult.get : RxResult → Inbound
  | .ok s => s
  | _ => Inbound.new 0

/-- The range insertion of active.rs:408-418:
`(lo..lo+count)` is marked missing unless already pending. -/
def markMissing (pending : OMap Bytes) : Nat → Nat → OSet → OSet
  | _, 0, m => m
  | lo, c + 1, m => markMissing pending (lo + 1) c (if pending.has lo then m else OSet.ins lo m)

/-- The loop of active.rs:433-436 (`while let Some(payload) = self.pending.remove(&next_seq)`).
Each iteration removes a key, so `pending.length` iterations are enough; see `drain_exact`. -/
def drain : Nat → Nat → OMap Bytes → List Bytes → OMap Bytes × List Bytes
  | 0, _, p, r => (p, r)
  | fuel + 1, next, p, r =>
    match p.get? next with
    | none => (p, r)
    | some v => drain fuel (next + 1) (p.del next) (r ++ [v])

/-- `InboundContext::handle_packet`, active.rs:371-451. -/
def Inbound.handlePacket (s : Inbound) (seq : Nat) (payload : Bytes) : RxResult :=
  if s.cur + 1 ≥ 2 ^ 32 then .panic          -- `self.seq_nro + 1` overflows
  else if seq = s.cur + 1 then                -- 373-387
    let missing := OSet.del seq s.missing
    if missing.isEmpty then
      .ok { s with missing := missing, ready := s.ready ++ [payload], cur := seq }
    else
      .ok { s with missing := missing, pending := s.pending.ins seq payload, cur := seq }
  else if seq > s.cur + 1 then                -- 389-426
    if seq - s.cur - 1 > maxLookahead then .tooHigh
    else
      let missing := markMissing s.pending (s.cur + 1) (seq - (s.cur + 1)) s.missing
      .ok { s with
        pending := s.pending.ins seq payload
        missing := OSet.del seq missing
        cur := seq }
  else if OSet.first s.missing = some seq then -- 427-440
    let missing := OSet.del seq s.missing
    let (pending, ready) := drain s.pending.length (seq + 1) s.pending (s.ready ++ [payload])
    .ok { s with missing := missing, pending := pending, ready := ready }
  else                                         -- 441-448
    .ok { s with missing := OSet.del seq s.missing, pending := s.pending.ins seq payload }

/-- Acknowledgement fields of data packets and plain ACKs: `ack_through = inbound_context.seq_nro`,
`nacks = missing.iter().take(MAX_NACKS)`; active.rs:882-889 and 1381-1383. -/
def Inbound.ackFields (s : Inbound) : Nat × List Nat := (s.cur, s.missing.take maxNacks)

/-- Acknowledgement fields of the `CLOSE` packet sent when the client closes its socket:
`ack_through` is set but no NACKs; active.rs:1075-1083. -/
def Inbound.closeAckFields (s : Inbound) : Nat × List Nat := (s.cur, [])

/-- Feed packets to `handle_packet` one after another; stops at the first error (the stream ends,
active.rs:1186-1187). -/
def Inbound.receive (s : Inbound) : List (Nat × Bytes) → RxResult
  | [] => .ok s
  | (seq, p) :: rest =>
    match s.handlePacket seq p with
    | .ok s' => s'.receive rest
    | .tooHigh => .tooHigh
    | .panic => .panic

/-- `InboundContext::can_close`, active.rs:465-467. -/
def Inbound.canClose (s : Inbound) : Bool := s.closeRequested && s.missing.isEmpty

/-- Liveness of the stream future. Not in the code: a helper of the model. -/
inductive Status where
  | running
  | /-- `poll` returned because of `SequenceNumberTooHigh` (1186-1187) -/ tooHigh
  | panicked
  | /-- `poll` returned after the remote's `CLOSE` (1430-1432) -/ finished
deriving Repr, DecidableEq

/-- Receive path of `Stream`: reorder state, the `WriteState` (active.rs:293-311) and the bytes the
client socket has accepted so far (observable). -/
structure Rx where
  inb : Inbound
  /-- `WriteState::WriteMessage { offset, message }` if `some`, `WriteState::GetMessage` if `none`. -/
  writing : Option (Nat × Bytes) := none
  /-- `WriteState::Closed` -/
  sockClosed : Bool := false
  status : Status := .running
  /-- bytes accepted by the client socket -/
  out : Bytes := []
deriving Repr, DecidableEq

/-- `Stream::new`: `InboundContext::new(highest_ack)`, write state from the initial message
(active.rs:684-716). -/
def Rx.new (highestAck : Nat) (initial : Option Bytes) : Rx :=
  { inb := Inbound.new highestAck, writing := initial.map (fun m => (0, m)) }

/-- `pop_message` into the write state (active.rs:1167-1177, 1200-1207). -/
def Rx.pop (s : Rx) : Rx :=
  match s.inb.ready with
  | [] => s
  | m :: rest => { s with inb := { s.inb with ready := rest }, writing := some (0, m) }

/-- Inputs of the receive path. Not in the code: the events that the theorems quantify over. -/
inductive RxEvent where
  | /-- a packet with this sequence number and payload is at the head of `cmd_rx` -/
    packet (seq : Nat) (payload : Bytes)
  | /-- a packet with the `CLOSE` flag and no payload is at the head of `cmd_rx` -/ close
  | /-- the ACK timer fires and a plain ACK is sent -/ ackTimer
  | /-- the write loop runs with an empty `cmd_rx` -/ pollEmpty
  | /-- `poll_write` returned `Ok(n)` (the socket accepts at most what is offered) -/ write (n : Nat)
deriving Repr, DecidableEq

/-- One iteration of the write loop of `Stream::poll`, active.rs:1164-1265.
A packet is only taken from the channel in states `GetMessage` and `Closed`; in `WriteMessage` it waits in
the channel, so the event leaves the state unchanged. An empty payload is not passed to `handle_packet`
(active.rs:852-854). -/
def Rx.step (s : Rx) : RxEvent → Rx
  | .packet seq payload =>
    if s.status ≠ .running ∨ s.writing.isSome then s
    else if payload.isEmpty then (if s.sockClosed then s else s.pop)
    else match s.inb.handlePacket seq payload with
      | .tooHigh => { s with status := .tooHigh }
      | .panic => { s with status := .panicked }
      | .ok inb =>
        let s := { s with inb := inb }
        if s.sockClosed then s else s.pop
  | .close =>                                  -- 832-846, 1200-1207
    if s.status ≠ .running ∨ s.writing.isSome then s
    else
      let s := { s with inb := { s.inb with closeRequested := true } }
      if s.sockClosed then s else s.pop
  | .ackTimer =>                               -- 1380-1433
    if s.status = .running ∧ s.inb.canClose then { s with status := .finished } else s
  | .pollEmpty =>
    if s.status ≠ .running ∨ s.writing.isSome ∨ s.sockClosed then s else s.pop
  | .write n =>
    if s.status ≠ .running then s else
    match s.writing with
    | none => s
    | some (off, m) =>
      if n = 0 then { s with writing := none, sockClosed := true }
      else
        let k := min n (m.length - off)
        { s with
          out := s.out ++ (m.drop off).take k
          writing := if k + off = m.length then none else some (off + k, m) }

/-- Run a sequence of events. Not in the code: a fold of the steps. -/
def Rx.run (s : Rx) (evs : List RxEvent) : Rx := evs.foldl Rx.step s

end Emissary.Stream
