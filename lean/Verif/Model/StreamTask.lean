import Verif.Model.StreamTx
import Verif.Model.StreamPacket
/-!
# The task of one stream

Models `emissary-core/src/sam/protocol/streaming/stream/active.rs`: `Stream` as a whole, `on_packet`, `shutdown`, and how `poll` begins, closes and ends. The sending half is
`Tx` (Model/StreamTx.lean), the receiving half `Inbound` (Model/StreamRx.lean). One `poll` is split into the steps it consists of; which of them happen, and in which
order, is for the socket, the network and the clocks to decide. Sequence numbers of own packets do not overflow in the model.
-/
namespace Emissary.StreamTask
open Emissary Emissary.Stream

/-- Why the task has ended. Not in the code: the places where `poll` returns `Ready`, active.rs 1152-1162, 1178, 1186-1187, 1239, 1247-1248, 1430-1432. -/
inductive End where
  | /-- the peer sent `RESET` (819-830) -/ reset
  | /-- the client had closed and everything is acknowledged (856-866) -/ acked
  | /-- a sequence number too far ahead (853) -/ tooHigh
  | /-- the peer had closed and nothing is known to be missing (1430-1432) -/ peerClosed
  | /-- the routing path is gone (1152-1162) -/ pathGone
  | /-- the manager has dropped the stream (1178, 1239) -/ dropped
  | /-- `unwrap` on a full channel (816) or an overflow -/ panic
deriving Repr, DecidableEq

/-- What is sent. Packets of the sending half are given by number and payload; the `CLOSE` of `shutdown` has no payload. Not in the code: the observable effects. -/
inductive Sent where
  | /-- data, or `CLOSE` if the payload is empty (packetize, flush, resend, shutdown) -/ numbered (seq : Nat) (payload : Bytes)
  | /-- the answer to a `SYN` (796-816) -/ syn
  | /-- a plain acknowledgement (1380-1428) -/ plain (ackThrough : Nat) (nacks : List Nat) (choke close : Bool)
deriving Repr, DecidableEq

/-- `Stream`, active.rs 489-562, with what has passed through the client's socket. -/
structure Task where
  tx : Tx := {}
  /-- `inbound_context` -/
  inb : Inbound
  /-- `inbound_context.ack_timer.is_some()` -/
  ackTimer : Bool := false
  /-- `WriteState::WriteMessage { offset, message }` -/
  writing : Option (Nat × Bytes) := none
  /-- `WriteState::Closed` -/
  writeClosed : Bool := false
  /-- `SocketState::Closed` -/
  readClosed : Bool := false
  /-- `close_requested` -/
  closeRequested : Bool := false
  ended : Option End := none
  /-- bytes written to the client's socket (observable) -/
  out : Bytes := []
  /-- bytes read from the client's socket (observable) -/
  taken : Bytes := []
  /-- payloads of the packets made so far, number `k` at position `k - 1`. Not in the code: history for the theorems. -/
  made : List Bytes := []

/-- `Stream::new`, active.rs 684-716. -/
def Task.new (highestAck : Nat) (initial : Option Bytes) : Task :=
  { inb := Inbound.new highestAck, writing := initial.map fun m => (0, m) }

/-- `pop_message` into the write state (active.rs 1167-1177, 1200-1207). -/
def Task.pop (t : Task) : Task :=
  match t.inb.ready with
  | [] => t
  | m :: rest => { t with inb := { t.inb with ready := rest }, writing := some (0, m) }

/-- `on_packet`, active.rs 776-869; `room` says whether the channel takes the answer to a `SYN`. -/
def Task.onPacket (t : Task) (p : Pkt.Packet) (room : Bool) : Task × List Sent :=
  if p.flags.synchronize && !room then ({ t with ended := some .panic }, [])
  else
    let sent := if p.flags.synchronize then [Sent.syn] else []
    if p.flags.reset then ({ t with ended := some .reset }, sent)
    else
      let t := if p.flags.close then { t with readClosed := true, inb := { t.inb with closeRequested := true }, ackTimer := true } else t
      let t := if p.flags.noAck then t else { t with tx := t.tx.handleAcks p.ackThrough p.nacks }
      match (if p.payload.isEmpty then RxResult.ok t.inb else t.inb.handlePacket p.seq p.payload) with
      | .tooHigh => ({ t with ended := some .tooHigh }, sent)
      | .panic => ({ t with ended := some .panic }, sent)
      | .ok inb =>
        let t := { t with inb := inb, ackTimer := t.ackTimer || !p.payload.isEmpty }
        if t.closeRequested && t.tx.unacked.isEmpty && t.tx.pending.isEmpty then ({ t with ended := some .acked }, sent)
        else (t, sent)

/-- `shutdown`, active.rs 1051-1142; `room` says whether the channel takes the packet. -/
def Task.shutdown (t : Task) (room : Bool) : Task × List Sent :=
  if t.closeRequested then (t, [])
  else
    let r := Tx.sendNew { t.tx with next := t.tx.next + 1 } [(t.tx.next, [])] [room]
    ({ t with closeRequested := true, tx := r.1, made := t.made ++ [[]] }, r.2.map fun e => .numbered e.1 e.2)

/-- What can happen to the task. Not in the code: the events that the theorems quantify over. -/
inductive Op where
  | /-- a packet is at the head of `cmd_rx`; `none` if it cannot be parsed -/ packet (p : Option Pkt.Packet) (room : Bool)
  | /-- `StreamEvent::ShutDown` is at the head of `cmd_rx` -/ shutDown (room : Bool)
  | /-- the other end of `cmd_rx` is gone -/ dropped
  | /-- the routing path handle is ready -/ pathGone
  | /-- the write loop runs with an empty `cmd_rx` -/ pollEmpty
  | /-- the client's socket takes `n` bytes; 0 if it fails -/ written (n : Nat) (room : Bool)
  | /-- the client's socket gives bytes -/ read (data : Bytes) (oks : List Bool)
  | /-- the client's socket is at its end or fails -/ eof (room : Bool)
  | /-- packets that wait are sent -/ flush (oks : List Bool)
  | /-- the retransmission timer fires -/ resend (expired : Nat) (path : Bool) (oks : List Bool)
  | /-- the acknowledgement timer fires -/ ackTimer (room : Bool)
deriving Repr

/-- One step of `poll`, active.rs 1148-1436. -/
def Task.step (t : Task) (op : Op) : Task × List Sent :=
  if t.ended.isSome then (t, []) else
  match op with
  | .packet p room =>                            -- 1184-1208, 1245-1264
    if t.writing.isSome then (t, []) else
    match p with
    | none => (t, [])
    | some p =>
      let r := t.onPacket p room
      if r.1.ended.isSome || r.1.writeClosed then r else (r.1.pop, r.2)
  | .shutDown room =>                            -- 1179-1183, 1240-1244
    if t.writing.isSome then (t, []) else
    if t.writeClosed then ({ t with readClosed := true }, [])
    else { t with writeClosed := true, readClosed := true }.shutdown room
  | .dropped => if t.writing.isSome then (t, []) else ({ t with ended := some .dropped }, [])
  | .pathGone => ({ t with ended := some .pathGone }, [])
  | .pollEmpty => if t.writing.isSome || t.writeClosed then (t, []) else (t.pop, [])
  | .written n room =>                           -- 1210-1233
    match t.writing with
    | none => (t, [])
    | some (off, m) =>
      if n = 0 then { t with writing := none, writeClosed := true, readClosed := true }.shutdown room
      else
        let k := min n (m.length - off)
        ({ t with out := t.out ++ (m.drop off).take k, writing := if k + off = m.length then none else some (off + k, m) }, [])
  | .read data oks =>                            -- 1343-1367
    if t.readClosed || !t.tx.pending.isEmpty || data.isEmpty || data.length > readBufferSize then (t, [])
    else
      let r := t.tx.packetize data oks
      ({ t with tx := r.1, taken := t.taken ++ data, made := t.made ++ chunksOf mtu data.length data }, r.2.map fun e => .numbered e.1 e.2)
  | .eof room =>                                 -- 1352-1357
    if t.readClosed || !t.tx.pending.isEmpty then (t, [])
    else { t with writing := none, writeClosed := true, readClosed := true }.shutdown room
  | .flush oks =>                                -- 1284-1342
    let r := t.tx.flush oks
    ({ t with tx := r.1 }, r.2.map fun e => .numbered e.1 e.2)
  | .resend e path oks =>                        -- 1372-1377
    let r := t.tx.resend e path oks
    ({ t with tx := r.1 }, r.2.map fun e => .numbered e.1 e.2)
  | .ackTimer room =>                            -- 1380-1433
    if t.ackTimer then
      let t := { t with ackTimer := false }
      let sent := if room then [Sent.plain t.inb.cur (t.inb.missing.take maxNacks) (t.inb.missing.length ≥ maxNacks) t.inb.canClose] else []
      (if t.inb.canClose then { t with ended := some .peerClosed } else t, sent)
    else (t, [])

/-- A history of steps. Not in the code: a fold of the steps. -/
def Task.run (t : Task) : List Op → Task × List Sent
  | [] => (t, [])
  | op :: ops =>
    let r := t.step op
    let s := r.1.run ops
    (s.1, r.2 ++ s.2)

end Emissary.StreamTask
