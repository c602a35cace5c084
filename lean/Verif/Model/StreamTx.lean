import Verif.Model.StreamRx
/-!
# Send half of an active I2P stream, and two endpoints joined by a network

Models `emissary-core/src/sam/protocol/streaming/stream/active.rs`: the sending fields of `Stream`
(`next_seq_nro`, `unacked`, `pending`, `window_size`), `handle_acks` (719-773), `packetize` (871-956),
`resend` (959-1048) and the "send pending packets" branch of `poll` (1285-1342).

Simplifications
* a packet is represented by its sequence number and payload; its acknowledgement fields are modelled by
  separate `emitAck` events because the receiver may emit them at any time;
* RTT/RTO/timers are replaced by oracles: which leading unacked packets have expired (`resend`);
* `event_tx.try_send` is an oracle (`oks`, missing entries mean success);
* `next_seq_nro` is a `Nat` (the theorems do not cover streams of more than 2^32 packets, where the debug
  build panics and the release build wraps).
-/
namespace Emissary.Stream

/-- `INITIAL_WINDOW_SIZE`, active.rs:65. -/
def initialWindow : Nat := 1
/-- `EXP_GROWTH_STOP_THRESHOLD`, active.rs:92. -/
def expGrowthStop : Nat := 64
/-- `MTU_SIZE`, active.rs:95. -/
def mtu : Nat := 1812
/-- `READ_BUFFER_SIZE`, active.rs:56. -/
def readBufferSize : Nat := 0xffff

/-- A data packet: sequence number and payload. Not in the code: a helper of the model. -/
abbrev DataPkt := Nat × Bytes

/-- The sending fields of `Stream`, active.rs:489-560. -/
structure Tx where
  next : Nat := 1
  unacked : OMap Bytes := []
  pending : OMap Bytes := []
  window : Nat := initialWindow
deriving Repr, DecidableEq

/-- `slice.chunks(n)` (with `fuel ≥ slice.length`). Standard or external library, not in /repo. -/
def chunksOf (n : Nat) : Nat → Bytes → List Bytes
  | 0, _ => []
  | fuel + 1, l => if l.isEmpty then [] else l.take n :: chunksOf n fuel (l.drop n)

/-- The send loop of `packetize`, active.rs:926-951: each packet goes to `unacked` and onto the wire if the
window allows and the channel accepts it, otherwise to `pending`. -/
def Tx.sendNew (s : Tx) : List DataPkt → List Bool → Tx × List DataPkt
  | [], _ => (s, [])
  | (seq, p) :: rest, oks =>
    if s.unacked.length ≥ s.window then
      Tx.sendNew { s with pending := s.pending.ins seq p } rest oks
    else if oks.headD true then
      let (s', out) := Tx.sendNew { s with unacked := s.unacked.ins seq p } rest oks.tail
      (s', (seq, p) :: out)
    else
      Tx.sendNew { s with pending := s.pending.ins seq p } rest oks.tail

/-- Number consecutive chunks from `seq` (active.rs:876-881). -/
def number (seq : Nat) : List Bytes → List DataPkt
  | [] => []
  | c :: cs => (seq, c) :: number (seq + 1) cs

/-- `packetize`, active.rs:871-956. Returns the new state and the packets put on the wire. -/
def Tx.packetize (s : Tx) (data : Bytes) (oks : List Bool) : Tx × List DataPkt :=
  let cs := chunksOf mtu data.length data
  Tx.sendNew { s with next := s.next + cs.length } (number s.next cs) oks

/-- The fold of active.rs:1311-1335 over the first `num_packets` pending keys. -/
def Tx.flushKeys (s : Tx) : List Nat → List Bool → Tx × List DataPkt
  | [], _ => (s, [])
  | k :: ks, oks =>
    match s.pending.get? k with
    | none => Tx.flushKeys s ks oks          -- `expect("to exist")`: unreachable, keys come from `pending`
    | some p =>
      if oks.headD true then
        let (s', out) := Tx.flushKeys { s with pending := s.pending.del k, unacked := s.unacked.ins k p } ks oks.tail
        (s', (k, p) :: out)
      else Tx.flushKeys s ks oks.tail

/-- One iteration of the "send pending packets" branch, active.rs:1285-1342. -/
def Tx.flush (s : Tx) (oks : List Bool) : Tx × List DataPkt :=
  let available := s.window - s.unacked.length
  if available = 0 then (s, [])
  else s.flushKeys (s.pending.keys.take (min s.pending.length available)) oks

/-- Window growth per acknowledged packet, active.rs:767-771. -/
def growWindow (w : Nat) : Nat :=
  if w < expGrowthStop then w * 2 else if w < maxWindowSize then w + 1 else w

/-- `n`-fold window growth (the loop of active.rs:763-772). -/
def growN : Nat → Nat → Nat
  | 0, w => w
  | n + 1, w => growN n (growWindow w)

/-- Is this sequence number acknowledged by `(ack_through, nacks)`; active.rs:754-757. -/
def acks (ackThrough : Nat) (nacks : List Nat) (seq : Nat) : Bool :=
  decide (seq ≤ ackThrough) && !nacks.contains seq

/-- `handle_acks`, active.rs:719-773. -/
def Tx.handleAcks (s : Tx) (ackThrough : Nat) (nacks : List Nat) : Tx :=
  if ackThrough > s.next then s
  else
    let acked := s.unacked.filter (fun e => acks ackThrough nacks e.1)
    { s with
      unacked := s.unacked.filter (fun e => !acks ackThrough nacks e.1)
      window := growN acked.length s.window }

/-- `resend`, active.rs:959-1048. `expired` is the number of leading unacked packets whose timer has run
out, `path` whether a routing path could be recreated, `oks` which sends the channel accepted. -/
def Tx.resend (s : Tx) (expired : Nat) (path : Bool) (oks : List Bool) : Tx × List DataPkt :=
  let ps := (s.unacked.take expired).take s.window
  if ps.isEmpty || !path then (s, [])
  else
    ({ s with window := if s.window > 1 then s.window - 1 else s.window },
     (ps.zipIdx.filter (fun e => oks.getD e.2 true)).map (·.1))

/-! ## The sender facing an arbitrary peer -/

/-- What can happen to the sender. The peer may send any acknowledgements whatsoever.
Not in the code: the events that the theorems quantify over. -/
inductive TxOp where
  | write (data : Bytes) (oks : List Bool)
  | flush (oks : List Bool)
  | resend (expired : Nat) (path : Bool) (oks : List Bool)
  | ack (ackThrough : Nat) (nacks : List Nat)

/-- Sender together with the bytes read from the application and the payloads of all packets created so far
(packet `k` carries `chunks[k-1]`). -/
structure TxHist where
  tx : Tx := {}
  written : Bytes := []
  chunks : List Bytes := []

/-- One operation; the socket is only read when nothing is pending (active.rs:1284-1363). -/
def TxHist.step (s : TxHist) : TxOp → TxHist
  | .write data oks =>
    if s.tx.pending.isEmpty ∧ data ≠ [] ∧ data.length ≤ readBufferSize then
      { tx := (s.tx.packetize data oks).1, written := s.written ++ data, chunks := s.chunks ++ chunksOf mtu data.length data }
    else s
  | .flush oks => { s with tx := (s.tx.flush oks).1 }
  | .resend e p oks => { s with tx := (s.tx.resend e p oks).1 }
  | .ack a ns => { s with tx := s.tx.handleAcks a ns }

/-- State after a history of operations on a new stream. Not in the code: a fold of the steps. -/
def TxHist.run (ops : List TxOp) : TxHist := ops.foldl TxHist.step {}

/-! ## Two endpoints and a network -/

/-- Sender, receiver, everything ever put on the wire in either direction, and the bytes the sending
application has written so far. Not in the code: a helper of the model. -/
structure Sys where
  tx : Tx := {}
  rx : Rx
  /-- every data packet ever sent -/
  net : List DataPkt := []
  /-- every acknowledgement ever sent -/
  acks : List (Nat × List Nat) := []
  /-- every byte the sending application has written -/
  written : Bytes := []
  /-- payloads of packets 1, 2, … in creation order -/
  chunks : List Bytes := []

/-- A freshly connected pair (the receiver's `highest_ack` is 0, active.rs:621, 678). -/
def Sys.init : Sys := { rx := Rx.new 0 none }

/-- What may happen next. The network may deliver any packet ever sent, any number of times, in any order,
or never. Not in the code: the events that the theorems quantify over. -/
inductive SysEvent where
  | /-- the sending application writes (the socket read returned these bytes) -/ write (data : Bytes) (oks : List Bool)
  | flush (oks : List Bool)
  | resend (expired : Nat) (path : Bool) (oks : List Bool)
  | /-- the `i`-th packet ever sent arrives (again) -/ deliver (i : Nat)
  | /-- a duplicate `SYN` or other packet with sequence number 0 arrives -/ deliverZero (payload : Bytes)
  | /-- the receiver sends an acknowledgement (plain, or in one of its own data packets) -/ emitAck
  | /-- the `i`-th acknowledgement ever sent arrives (again) -/ deliverAck (i : Nat)
  | rxPoll
  | /-- the receiving application takes up to `n+1` bytes -/ rxWrite (n : Nat)
  | /-- the receiving application's socket fails -/ rxSockFail

/-- One step of the system. A write is only read from the socket when `pending` is empty
(active.rs:1284-1363), is non-empty and fits the read buffer. -/
def Sys.step (s : Sys) : SysEvent → Sys
  | .write data oks =>
    if s.tx.pending.isEmpty ∧ data ≠ [] ∧ data.length ≤ readBufferSize then
      let (tx, out) := s.tx.packetize data oks
      { s with tx := tx, net := s.net ++ out, written := s.written ++ data,
               chunks := s.chunks ++ chunksOf mtu data.length data }
    else s
  | .flush oks => let (tx, out) := s.tx.flush oks; { s with tx := tx, net := s.net ++ out }
  | .resend e p oks => let (tx, out) := s.tx.resend e p oks; { s with tx := tx, net := s.net ++ out }
  | .deliver i =>
    match s.net[i]? with
    | none => s
    | some (seq, p) => { s with rx := s.rx.step (.packet seq p) }
  | .deliverZero p => { s with rx := s.rx.step (.packet 0 p) }
  | .emitAck => if s.rx.status = .running then { s with acks := s.acks ++ [s.rx.inb.ackFields] } else s
  | .deliverAck i =>
    match s.acks[i]? with
    | none => s
    | some (a, ns) => { s with tx := s.tx.handleAcks a ns }
  | .rxPoll => { s with rx := s.rx.step .pollEmpty }
  | .rxWrite n => { s with rx := s.rx.step (.write (n + 1)) }
  | .rxSockFail => { s with rx := s.rx.step (.write 0) }

/-- Every state reachable from a fresh connection. Not in the code: a fold of the steps. -/
def Sys.run (evs : List SysEvent) : Sys := evs.foldl Sys.step Sys.init

end Emissary.Stream
