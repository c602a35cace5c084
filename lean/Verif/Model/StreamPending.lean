import Verif.Model.Bytes
/-!
# Inbound stream waiting for a listener

Models `emissary-core/src/sam/protocol/streaming/stream/pending.rs` (`PendingStream`, 67-203) and the
hand-over to an active stream (`stream/active.rs:624-660`, `StreamKind::InboundPending`).
Simplification: packets are given by their parsed fields; ids, timestamps and signatures are omitted.
-/
namespace Emissary.Stream

/-- `INITIAL_WINDOW_SIZE`, pending.rs:35. -/
def pendingWindow : Nat := 6

/-- `PendingStream`, pending.rs:67-87. -/
structure PendingStream where
  packets : List Bytes
  seq : Nat
deriving Repr, DecidableEq

/-- `PendingStream::new`, pending.rs:93-124. -/
def PendingStream.new (synPayload : Bytes) : PendingStream :=
  { packets := if synPayload.isEmpty then [] else [synPayload], seq := 0 }

/-- `PendingStreamResult`, pending.rs:38-56; `send a` carries the `ack_through` of the packet sent
(it never carries NACKs). -/
inductive PendingResult where
  | doNothing
  | send (ackThrough : Nat)
  | sendAndDestroy
  | destroy
deriving Repr, DecidableEq

/-- `PendingStream::on_packet`, pending.rs:137-202. `fin` is `flags.reset() || flags.close()`. -/
def PendingStream.onPacket (s : PendingStream) (fin : Bool) (seq : Nat) (payload : Bytes) :
    PendingStream × PendingResult :=
  if fin then (s, .destroy)
  else if payload.isEmpty || decide (seq ≤ s.seq) then (s, .doNothing)
  else if s.packets.length = pendingWindow then (s, .sendAndDestroy)
  else ({ packets := s.packets ++ [payload], seq := seq }, .send seq)

/-- Process packets until the stream is destroyed; returns the state if it is still pending. Not in the code: a fold of the steps. -/
def PendingStream.run (s : PendingStream) : List (Nat × Bytes) → Option PendingStream
  | [] => some s
  | (seq, p) :: rest =>
    match s.onPacket false seq p with
    | (_, .destroy) => none
    | (_, .sendAndDestroy) => none
    | (s', _) => s'.run rest

/-- The acknowledgements sent while processing packets. Not in the code: a helper of the model. -/
def PendingStream.acksSent (s : PendingStream) : List (Nat × Bytes) → List Nat
  | [] => []
  | (seq, p) :: rest =>
    match s.onPacket false seq p with
    | (_, .destroy) => []
    | (_, .sendAndDestroy) => []
    | (s', .send a) => a :: s'.acksSent rest
    | (s', .doNothing) => s'.acksSent rest

/-- The initial message handed to the client when the stream is accepted
(active.rs:625-651: the packets concatenated). -/
def PendingStream.handover (s : PendingStream) : Bytes := s.packets.flatten

end Emissary.Stream
