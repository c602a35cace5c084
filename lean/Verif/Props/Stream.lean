import Verif.Lemmas.StreamTx
import Verif.Lemmas.StreamRxAny
import Verif.Model.StreamPending
/-!
# Properties of I2P streams (C01–C08)

`Sys.run evs` is the state of a sender and a receiver joined by a network after the events `evs`; the network may
deliver any packet ever sent any number of times, in any order, or never (`SysEvent.deliver`).
`written` is what the sending application wrote, `rx.out` what the receiving application has read.
-/
namespace Emissary.Stream
open Emissary

/-! ## C01 -/

/-- C01: at every moment the bytes read are a prefix of the bytes written. -/
theorem C01_bytes_read_are_prefix_of_bytes_written (evs : List SysEvent) :
    (Sys.run evs).rx.out <+: (Sys.run evs).written := by
  obtain ⟨rcv, h, _⟩ := SysInv.run evs
  obtain ⟨popped, n, hr⟩ := h.rx
  rw [h.written]
  refine hr.out_pre.trans ?_
  have h1 : popped <+: (Sys.run evs).chunks :=
    (List.prefix_append popped _).trans (hr.inb.released ▸ List.take_prefix _ _)
  obtain ⟨t, ht⟩ := h1
  rw [← ht]; simp

/-- C01, receiver against any peer: whatever sequence of packets, polls, socket writes and close requests an
active stream sees, as long as equal sequence numbers carry equal payloads the application reads a prefix of the
initial message followed by the payloads in sequence-number order. -/
theorem C01_receiver_reads_prefix_in_sequence_order (base : Nat) (initial : Option Bytes)
    (payloads : List Bytes) (evs : List RxEvent)
    (h : ∀ seq p, RxEvent.packet seq p ∈ evs → p ≠ [] → base < seq → payloads[seq - base - 1]? = some p) :
    ((Rx.new base initial).run evs).out <+: initial.getD [] ++ payloads.flatten := by
  obtain ⟨rcv, popped, n, hr⟩ := RxInv.run evs h (RxInv.new base initial payloads)
  refine hr.out_pre.trans ?_
  have h1 : popped <+: payloads :=
    (List.prefix_append popped _).trans (hr.inb.released ▸ List.take_prefix _ _)
  obtain ⟨t, ht⟩ := h1
  rw [← ht]; simp

/-- Non-trivial instance: two packets delivered out of order, twice, are both read. -/
example :
    let evs := [.write [1, 2, 3] [], .emitAck, .deliver 0, .emitAck, .deliverAck 1, .write [4, 5] [],
      .deliver 1, .deliver 0, .rxWrite 9, .rxPoll, .deliver 1, .rxWrite 0]
    (Sys.run evs).rx.out = [1, 2, 3, 4] ∧ (Sys.run evs).written = [1, 2, 3, 4, 5] := by decide +kernel

example :
    ((Rx.new 0 none).run [.packet 2 [7, 8], .packet 1 [5, 6], .write 1, .write 5, .pollEmpty, .write 9]).out
      = [5, 6, 7, 8] := by decide +kernel

/-! ## C02 -/

/-- C02: if every packet with sequence number `base+1 .. base+length` was received at least once, in whatever
order and however often, and no packet was refused, then exactly the written payloads are ready for the
application and nothing is missing. -/
theorem C02_all_packets_received_all_bytes_ready (base : Nat) (payloads : List Bytes)
    (pkts : List (Nat × Bytes)) (s : Inbound)
    (hgenuine : ∀ e ∈ pkts, base < e.1 → payloads[e.1 - base - 1]? = some e.2)
    (hall : ∀ k, k < payloads.length → ∃ p, (base + k + 1, p) ∈ pkts)
    (hok : (Inbound.new base).receive pkts = .ok s) :
    s.ready = payloads ∧ s.missing = [] := by
  obtain ⟨n, h⟩ := Inv.receive pkts hgenuine (Inv.init base payloads (fun _ => False) (fun _ _ => id)) hok
  have hm : s.missing = [] := by
    cases hh : s.missing with
    | nil => rfl
    | cons x t =>
      exfalso
      have hx : x ∈ s.missing := by rw [hh]; exact List.mem_cons_self
      have h1 := h.miss_rng x hx
      have h2 := h.cur_le
      obtain ⟨p, hp⟩ := hall (x - base - 1) (by omega)
      rw [show base + (x - base - 1) + 1 = x by omega] at hp
      exact ((h.recvd x (by omega)).mp (.inr ⟨p, hp⟩)).2 hx
  have hcur := h.all_released hm
  have hn : n = payloads.length := by
    have h2 := h.cur_le
    rcases Nat.lt_or_ge n payloads.length with hlt | hge
    · obtain ⟨p, hp⟩ := hall n hlt
      have := ((h.recvd (base + n + 1) (by omega)).mp (.inr ⟨p, hp⟩)).1
      omega
    · omega
  exact ⟨by have := h.released; simpa [hn] using this, hm⟩

/-- C02, closed loop: once the sender holds no more unacknowledged packets and the receiving application has
taken what is offered to it, it has read exactly what was written. -/
theorem C02_quiescent_stream_delivered_everything (evs : List SysEvent)
    (hu : (Sys.run evs).tx.unacked = []) (hp : (Sys.run evs).tx.pending = [])
    (hw : (Sys.run evs).rx.writing = none) (hr : (Sys.run evs).rx.inb.ready = [])
    (hc : (Sys.run evs).rx.sockClosed = false) :
    (Sys.run evs).rx.out = (Sys.run evs).written := by
  obtain ⟨rcv, h, _⟩ := SysInv.run evs
  obtain ⟨popped, n, hx⟩ := h.rx
  have hall : ∀ k, 1 ≤ k → k ≤ (Sys.run evs).chunks.length → rcv k := by
    intro k h1 h2
    rcases h.retained k h1 h2 with h3 | h3 | h3
    · exact h3
    · rw [hu] at h3; simp [OMap.has] at h3
    · rw [hp] at h3; simp [OMap.has] at h3
  have hm : (Sys.run evs).rx.inb.missing = [] := by
    cases hh : (Sys.run evs).rx.inb.missing with
    | nil => rfl
    | cons x t =>
      exfalso
      have hx' : x ∈ (Sys.run evs).rx.inb.missing := by rw [hh]; exact List.mem_cons_self
      have h1 := hx.inb.miss_rng x hx'
      have h2 := hx.inb.cur_le
      exact ((hx.inb.recvd x (by omega)).mp (hall x (by omega) (by omega))).2 hx'
  have hcur := hx.inb.all_released hm
  have hn : n = (Sys.run evs).chunks.length := by
    have h2 := hx.inb.cur_le
    rcases Nat.lt_or_ge n (Sys.run evs).chunks.length with hlt | hge
    · have := ((hx.inb.recvd (n + 1) (by omega)).mp (hall (n + 1) (by omega) (by omega))).1
      omega
    · omega
  have h1 := hx.out_eq hc
  have h2 := hx.inb.released
  rw [hr, hn] at h2
  simp at h2
  simp only [Rx.remaining, hw, h2, List.append_nil, List.nil_append] at h1
  rw [h.written]; exact h1

/-- Non-trivial instance of the receiver form: packets 3, 1, 3, 2. -/
example :
    (Inbound.new 0).receive [(3, [3]), (1, [1]), (3, [3]), (2, [2])] =
      .ok { cur := 3, missing := [], pending := [], ready := [[1], [2], [3]] } := by decide +kernel

/-- Non-trivial instance of the closed-loop form. -/
example :
    let s := Sys.run [.write [1, 2] [], .deliver 0, .emitAck, .deliverAck 0, .rxWrite 5]
    s.tx.unacked = [] ∧ s.tx.pending = [] ∧ s.rx.writing = none ∧ s.rx.inb.ready = [] ∧
      s.rx.sockClosed = false ∧ s.written = [1, 2] := by decide +kernel

/-! ## C03 -/

/-- C03, between two emissary endpoints: a packet acknowledged by any acknowledgement ever sent by the stream
was delivered to it. -/
theorem C03_closed_loop_acks_only_delivered_packets (evs : List SysEvent) (a : Nat) (nacks : List Nat)
    (h : (a, nacks) ∈ (Sys.run evs).acks) (k : Nat) (h1 : 1 ≤ k) (h2 : k ≤ a) (h3 : k ∉ nacks) :
    ∃ i p, SysEvent.deliver i ∈ evs ∧ (Sys.run evs).net[i]? = some (k, p) := by
  obtain ⟨rcv, hi, hd⟩ := SysInv.run evs
  rcases hd k (hi.acks _ h k h1 h2 h3) with h4 | h4
  · omega
  · exact h4

/-- C03, against an arbitrary peer: every acknowledged packet was received, *provided* at most 255 packets are
missing. Missing for the full property: the NACK list is cut at 255 (see `C03_nack_limit_violated`) and the packet
that closes the stream carries no NACKs at all (see `C03_close_violated`). -/
theorem C03_acks_only_received_packets_partial (base : Nat) (pkts : List (Nat × Bytes)) (s : Inbound)
    (hok : (Inbound.new base).receive pkts = .ok s) (hfew : s.missing.length ≤ 255)
    (k : Nat) (h1 : base < k) (h2 : k ≤ s.ackFields.1) (h3 : k ∉ s.ackFields.2) : ∃ p, (k, p) ∈ pkts := by
  have h := BInv.receive pkts (BInv.new base) hok
  simp only [Inbound.ackFields] at h2 h3
  rw [List.take_of_length_le (by unfold maxNacks; omega)] at h3
  rcases (h.recvd k h1).mpr ⟨h2, h3⟩ with h | h
  · exact h.elim
  · exact h

/-- C03 is violated: after packets 1 and 300 the stream acknowledges packet 290, which it never received. -/
theorem C03_nack_limit_violated :
    ∃ (pkts : List (Nat × Bytes)) (s : Inbound), (Inbound.new 0).receive pkts = .ok s ∧
      ∃ k, 0 < k ∧ k ≤ s.ackFields.1 ∧ k ∉ s.ackFields.2 ∧ ∀ p, (k, p) ∉ pkts := by
  refine ⟨[(1, [1]), (300, [2])], ((Inbound.new 0).receive [(1, [1]), (300, [2])]).get, by decide +kernel,
    290, by decide, by decide +kernel, by decide +kernel, ?_⟩
  intro p hp
  simp at hp

/-- C03 is violated by the packet that closes the stream: after packets 1 and 3 it acknowledges packet 2. -/
theorem C03_close_violated :
    ∃ (pkts : List (Nat × Bytes)) (s : Inbound), (Inbound.new 0).receive pkts = .ok s ∧
      ∃ k, 0 < k ∧ k ≤ s.closeAckFields.1 ∧ k ∉ s.closeAckFields.2 ∧ ∀ p, (k, p) ∉ pkts := by
  refine ⟨[(1, [1]), (3, [2])], ((Inbound.new 0).receive [(1, [1]), (3, [2])]).get, by decide +kernel,
    2, by decide, by decide +kernel, by decide +kernel, ?_⟩
  intro p hp
  simp at hp

/-- Non-trivial instance: after 1 and 4, packets 2 and 3 are NACKed. -/
example : ((Inbound.new 0).receive [(1, [1]), (4, [2])]).get.ackFields = (4, [2, 3]) ∧
    ((Inbound.new 0).receive [(1, [1]), (4, [2])]).get.missing.length ≤ 255 := by decide +kernel

example : (Sys.run [.write [1] [], .deliver 0, .emitAck]).acks = [(1, [])] := by decide +kernel

/-! ## C04 -/

/-- C04: a packet is refused exactly when it is more than 513 ahead of the highest one seen. -/
theorem C04_refused_iff_too_far_ahead (s : Inbound) (seq : Nat) (p : Bytes) (h : s.cur + 1 < 2 ^ 32) :
    s.handlePacket seq p = .tooHigh ↔ s.cur + 513 < seq := by
  unfold Inbound.handlePacket maxLookahead maxWindowSize
  rw [if_neg (by omega)]
  constructor
  · intro hh
    split at hh
    · simp only at hh; split at hh <;> cases hh
    split at hh
    · split at hh
      · omega
      · cases hh
    split at hh <;> cases hh
  · intro hh
    rw [if_neg (by omega), if_pos (by omega), if_pos (by omega)]

/-- C04: the refused packet ends the stream and neither its payload nor its sequence number is recorded. -/
theorem C04_refused_packet_changes_nothing (r : Rx) (seq : Nat) (p : Bytes) (h : r.inb.cur + 1 < 2 ^ 32)
    (hp : p ≠ []) (hr : r.status = .running) (hw : r.writing = none) (hs : r.inb.cur + 513 < seq) :
    r.step (.packet seq p) = { r with status := .tooHigh } := by
  have := (C04_refused_iff_too_far_ahead r.inb seq p h).mpr hs
  simp [Rx.step, hr, hw, this, hp]

/-- C04: an accepted packet adds at most 512 missing sequence numbers and one buffered payload. -/
theorem C04_accepted_packet_adds_at_most_512_missing (s s' : Inbound) (seq : Nat) (p : Bytes)
    (h : s.handlePacket seq p = .ok s') :
    s'.missing.length ≤ s.missing.length + 512 ∧ s'.cur ≤ s.cur + 513 := by
  have hd := oset_del_length seq s.missing
  unfold Inbound.handlePacket at h
  split at h
  · cases h
  split at h
  · simp only at h; split at h <;> cases h <;> (simp only; omega)
  split at h
  · split at h
    · cases h
    · rename_i hla
      cases h
      have h1 := markMissing_length s.pending (s.cur + 1) (seq - (s.cur + 1)) s.missing
      have h2 := oset_del_length seq (markMissing s.pending (s.cur + 1) (seq - (s.cur + 1)) s.missing)
      unfold maxLookahead maxWindowSize at hla
      simp only; omega
  split at h <;> cases h <;> (simp only; omega)

/-- C04, closed loop: the limit never hits a peer that runs the same code, whatever the network does. -/
theorem C04_never_refuses_own_sender (evs : List SysEvent) : (Sys.run evs).rx.status ≠ .tooHigh := by
  obtain ⟨rcv, h, _⟩ := SysInv.run evs
  exact h.status

/-- Both sides of the boundary occur. -/
example : (Inbound.new 7).handlePacket 521 [1] = .tooHigh ∧
    (∃ s, (Inbound.new 7).handlePacket 520 [1] = .ok s ∧ s.missing.length = 512) := by
  refine ⟨by decide +kernel, ((Inbound.new 7).handlePacket 520 [1]).get, by decide +kernel, by decide +kernel⟩

/-! ## C05, C06: the sender against an arbitrary peer -/

/-- C05: the window stays within 1..=128 and at most 128 packets are unacknowledged. -/
theorem C05_window_bounds (ops : List TxOp) :
    1 ≤ (TxHist.run ops).tx.window ∧ (TxHist.run ops).tx.window ≤ 128 ∧
    (TxHist.run ops).tx.unacked.length ≤ 128 := by
  have h := (TxHist.inv ops).1
  exact ⟨h.w1, h.w2, h.ulen⟩

/-- C06: the created packets carry exactly the bytes written, in order, in non-empty packets of at most 1812
bytes; every packet is either queued in exactly one of the two queues with its own payload, or was acknowledged. -/
theorem C06_written_data_retained_until_acked (ops : List TxOp) :
    (TxHist.run ops).chunks.flatten = (TxHist.run ops).written ∧
    (∀ c ∈ (TxHist.run ops).chunks, c ≠ [] ∧ c.length ≤ 1812) ∧
    ∀ k p, (TxHist.run ops).chunks[k]? = some p →
      ((TxHist.run ops).tx.unacked.get? (k + 1) = some p ∧ (TxHist.run ops).tx.pending.get? (k + 1) = none) ∨
      ((TxHist.run ops).tx.unacked.get? (k + 1) = none ∧ (TxHist.run ops).tx.pending.get? (k + 1) = some p) ∨
      ∃ a nacks, TxOp.ack a nacks ∈ ops ∧ k + 1 ≤ a ∧ k + 1 ∉ nacks := by
  obtain ⟨hi, ha⟩ := TxHist.inv ops
  refine ⟨(TxHist.chunks_spec ops).1, (TxHist.chunks_spec ops).2, ?_⟩
  intro k p hk
  have hlt := lt_of_getElem?_some hk
  rcases ha (k + 1) (by omega) (by omega) with (h | h) | h
  · left
    obtain ⟨v, hv⟩ := Option.isSome_iff_exists.mp h
    have := (hi.uval _ (OMap.mem_of_get? hv)).2
    simp only [Nat.add_sub_cancel, hk] at this
    cases this
    have hp := hi.disj _ h
    exact ⟨hv, by simpa [OMap.has] using hp⟩
  · right; left
    obtain ⟨v, hv⟩ := Option.isSome_iff_exists.mp h
    have := (hi.pval _ (OMap.mem_of_get? hv)).2
    simp only [Nat.add_sub_cancel, hk] at this
    cases this
    refine ⟨?_, hv⟩
    cases hu : (TxHist.run ops).tx.unacked.get? (k + 1) with
    | none => rfl
    | some w =>
      have := hi.disj (k + 1) (by simp [OMap.has, hu])
      rw [this] at h; cases h
  · exact .inr (.inr h)

/-- C06: nothing is queued that was not written. -/
theorem C06_only_written_data_queued (ops : List TxOp) (k : Nat) (p : Bytes)
    (h : (TxHist.run ops).tx.unacked.get? k = some p ∨ (TxHist.run ops).tx.pending.get? k = some p) :
    1 ≤ k ∧ (TxHist.run ops).chunks[k - 1]? = some p := by
  obtain ⟨hi, _⟩ := TxHist.inv ops
  rcases h with h | h
  · exact hi.uval _ (OMap.mem_of_get? h)
  · exact hi.pval _ (OMap.mem_of_get? h)

/-- C06: an acknowledgement that does not exceed what was sent releases exactly the sent packets it covers. -/
theorem C06_ack_releases_exactly_covered (t : Tx) (a : Nat) (nacks : List Nat) (h : a ≤ t.next) (k : Nat) :
    (t.handleAcks a nacks).unacked.has k = (t.unacked.has k && !(decide (k ≤ a) && decide (k ∉ nacks))) ∧
    (t.handleAcks a nacks).pending = t.pending := by
  unfold Tx.handleAcks
  rw [if_neg (by omega)]
  refine ⟨?_, rfl⟩
  simp only
  rw [has_filter_key (fun k => !acks a nacks k)]
  simp [acks]

/-- C06: an acknowledgement beyond the next sequence number (nothing was sent there) is ignored: it releases nothing and
does not grow the window. -/
theorem C06_ack_of_unsent_data_ignored (t : Tx) (a : Nat) (nacks : List Nat) (h : t.next < a) : t.handleAcks a nacks = t := by
  simp only [Tx.handleAcks]
  rw [if_pos h]

example : ({} : Tx).next < 12 := by decide

/-- C06, closed loop: a packet the sender no longer holds was delivered to the receiver. -/
theorem C06_closed_loop_released_only_when_delivered (evs : List SysEvent) (k : Nat)
    (h2 : k < (Sys.run evs).chunks.length)
    (hu : (Sys.run evs).tx.unacked.get? (k + 1) = none) (hp : (Sys.run evs).tx.pending.get? (k + 1) = none) :
    ∃ i p, SysEvent.deliver i ∈ evs ∧ (Sys.run evs).net[i]? = some (k + 1, p) := by
  obtain ⟨rcv, hi, hd⟩ := SysInv.run evs
  rcases hi.retained (k + 1) (by omega) (by omega) with h | h | h
  · rcases hd _ h with h4 | h4
    · omega
    · exact h4
  · simp [OMap.has, hu] at h
  · simp [OMap.has, hp] at h

/-- Non-trivial instance: three packets written with window 1: one is sent, the others wait, an ack of the first
releases it. -/
example :
    let s := TxHist.run [.write (List.replicate 4000 7) []]
    s.tx.unacked.keys = [1] ∧ s.tx.pending.keys = [2, 3] ∧ s.chunks.length = 3 ∧
    (TxHist.run [.write (List.replicate 4000 7) [], .ack 1 [], .flush []]).tx.unacked.keys = [2, 3] ∧
    (TxHist.run [.write (List.replicate 4000 7) [], .ack 1 [], .flush []]).tx.window = 2 := by decide +kernel

/-! ## C07 -/

/-- C07 is violated: the close overtakes the only data packet; the stream ends and the data is never read. -/
theorem C07_close_overtakes_data_violated :
    ∃ evs : List RxEvent, ((Rx.new 0 none).run evs).status = .finished ∧
      ((Rx.new 0 none).run evs).out = [] ∧ RxEvent.packet 1 [42] ∈ evs :=
  ⟨[.close, .ackTimer, .packet 1 [42], .write 10], by decide +kernel, by decide +kernel, by simp⟩

/-- C07 is violated even for data that was received before the stream ended: packets 2, CLOSE, 1 arrive, the
application has not read yet, the acknowledgement timer fires and both packets are lost. -/
theorem C07_received_data_violated :
    ∃ evs : List RxEvent, ((Rx.new 0 none).run evs).status = .finished ∧
      ((Rx.new 0 none).run evs).inb.cur = 2 ∧ ((Rx.new 0 none).run evs).inb.missing = [] ∧
      ((Rx.new 0 none).run evs).out = [] ∧ ∀ later, ((Rx.new 0 none).run (evs ++ later)).out = [] := by
  refine ⟨[.packet 2 [2], .close, .packet 1 [1], .ackTimer], by decide +kernel, by decide +kernel,
    by decide +kernel, by decide +kernel, ?_⟩
  intro later
  have hstuck : ∀ (l : List RxEvent) (r : Rx), r.status = .finished → (r.run l).out = r.out := by
    intro l
    induction l with
    | nil => intro r _; rfl
    | cons e l ih =>
      intro r hr
      have : r.step e = r := by cases e <;> simp [Rx.step, hr]
      show ((r.step e).run l).out = r.out
      rw [this]; exact ih r hr
  unfold Rx.run at hstuck ⊢
  rw [List.foldl_append, hstuck _ _ (by decide +kernel)]
  decide +kernel

/-- C07, the part that holds: when the stream ends because of a close, no sequence number up to the highest
received one is missing, and what was read plus what was queued for the socket is exactly the data up to there.
Missing: data not yet taken by the socket, and data beyond the highest received packet, is lost. -/
theorem C07_close_waits_for_known_gaps_partial (base : Nat) (initial : Option Bytes)
    (payloads : List Bytes) (evs : List RxEvent)
    (h : ∀ seq p, RxEvent.packet seq p ∈ evs → p ≠ [] → base < seq → payloads[seq - base - 1]? = some p)
    (hf : ((Rx.new base initial).run evs).status = .finished)
    (hs : ((Rx.new base initial).run evs).sockClosed = false) :
    let r := (Rx.new base initial).run evs
    r.inb.missing = [] ∧ base ≤ r.inb.cur ∧
    r.out ++ (match r.writing with | none => [] | some (off, m) => m.drop off) ++ r.inb.ready.flatten
      = initial.getD [] ++ (payloads.take (r.inb.cur - base)).flatten := by
  obtain ⟨rcv, popped, n, hr⟩ := RxInv.run evs h (RxInv.new base initial payloads)
  have hc := Rx.finished_canClose evs (r := Rx.new base initial) (by simp [Rx.new]) hf
  have hm : ((Rx.new base initial).run evs).inb.missing = [] := by
    simp [Inbound.canClose] at hc; exact hc.2
  have hcur := hr.inb.all_released hm
  refine ⟨hm, by omega, ?_⟩
  have h1 := hr.out_eq hs
  have h2 := hr.inb.released
  have h3 : ((Rx.new base initial).run evs).inb.cur - base = n := by omega
  rw [h3, ← h2]
  rw [List.flatten_append, ← List.append_assoc, ← h1]
  rfl

/-- Non-trivial instance: the close waits for packet 1 and both packets are read. -/
example :
    let r := (Rx.new 0 none).run [.packet 2 [2], .close, .ackTimer, .packet 1 [1], .write 1, .pollEmpty, .write 1,
      .ackTimer]
    r.status = .finished ∧ r.sockClosed = false ∧ r.out = [1, 2] := by decide +kernel

/-! ## C08 -/

/-- C08 is violated: packets 1, 3, 2 arrive before accept. Packet 3 is acknowledged although 2 is missing, packet 2
is then ignored, and the application is handed packets 1 and 3. -/
theorem C08_pending_stream_gap_violated :
    ∃ (pkts : List (Nat × Bytes)) (s : PendingStream), (PendingStream.new []).run pkts = some s ∧
      (∀ k, 1 ≤ k → k ≤ 3 → (k, [UInt8.ofNat k]) ∈ pkts) ∧
      s.handover = [1, 3] ∧ (PendingStream.new []).acksSent pkts = [1, 3] :=
  ⟨[(1, [1]), (3, [3]), (2, [2])], { packets := [[1], [3]], seq := 3 }, by decide +kernel, by
    intro k h1 h2
    have : k = 1 ∨ k = 2 ∨ k = 3 := by omega
    rcases this with rfl | rfl | rfl <;> decide +kernel, by decide +kernel, by decide +kernel⟩

/-- Arrival order without gaps: no packet arrives before its predecessors (duplicates allowed). -/
def InOrder : Nat → List (Nat × Bytes) → Prop
  | _, [] => True
  | m, (seq, _) :: rest => seq ≤ m + 1 ∧ InOrder (max m seq) rest

/-- C08, the part that holds: if no packet overtakes an earlier one, what is handed over is the SYN payload
followed by exactly the packets `1..n` in order, and every acknowledgement covers only packets received.
Missing: reordered or lost packets before accept. -/
theorem C08_in_order_handover_partial (syn : Bytes) (payloads : List Bytes) (pkts : List (Nat × Bytes))
    (hg : ∀ e ∈ pkts, 1 ≤ e.1 → payloads[e.1 - 1]? = some e.2) (hne : ∀ e ∈ pkts, e.2 ≠ [])
    (ho : InOrder 0 pkts) (s : PendingStream) (hs : (PendingStream.new syn).run pkts = some s) :
    s.handover = syn ++ (payloads.take s.seq).flatten ∧
    (∀ k, 1 ≤ k → k ≤ s.seq → ∃ p, (k, p) ∈ pkts) ∧
    ∀ a ∈ (PendingStream.new syn).acksSent pkts, ∀ k, 1 ≤ k → k ≤ a → ∃ p, (k, p) ∈ pkts := by
  have key : ∀ (rest done : List (Nat × Bytes)) (t : PendingStream), pkts = done ++ rest →
      InOrder t.seq rest → t.handover = syn ++ (payloads.take t.seq).flatten →
      (∀ k, 1 ≤ k → k ≤ t.seq → ∃ p, (k, p) ∈ done) → t.run rest = some s →
      s.handover = syn ++ (payloads.take s.seq).flatten ∧
      (∀ k, 1 ≤ k → k ≤ s.seq → ∃ p, (k, p) ∈ pkts) ∧
      ∀ a ∈ t.acksSent rest, ∀ k, 1 ≤ k → k ≤ a → ∃ p, (k, p) ∈ pkts := by
    intro rest
    induction rest with
    | nil =>
      intro done t he _ hh hd hr
      simp only [PendingStream.run] at hr
      cases hr
      exact ⟨hh, by simpa [he] using hd, by simp [PendingStream.acksSent]⟩
    | cons e rest ih =>
      obtain ⟨seq, p⟩ := e
      intro done t he ho hh hd hr
      have hmem : (seq, p) ∈ pkts := by rw [he]; simp
      have hp := hne _ hmem
      simp only [InOrder] at ho
      have hpe : p.isEmpty = false := by simpa using hp
      simp only [PendingStream.run, PendingStream.acksSent, PendingStream.onPacket, Bool.false_eq_true, if_false,
        hpe, Bool.false_or, decide_eq_true_eq] at hr ⊢
      by_cases hle : seq ≤ t.seq
      · simp only [hle, if_true] at hr ⊢
        rw [Nat.max_eq_left hle] at ho
        exact ih (done ++ [(seq, p)]) t (by simp [he]) ho.2 hh
          (fun k h1 h2 => by obtain ⟨q, hq⟩ := hd k h1 h2; exact ⟨q, List.mem_append_left _ hq⟩) hr
      · simp only [hle, if_false] at hr ⊢
        by_cases hfull : t.packets.length = pendingWindow
        · simp only [hfull, if_true] at hr; cases hr
        · simp only [hfull, if_false] at hr ⊢
          have hseq : seq = t.seq + 1 := by omega
          rw [Nat.max_eq_right (by omega)] at ho
          have hv := hg _ hmem (by simp only; omega)
          have hd' : ∀ k, 1 ≤ k → k ≤ seq → ∃ q, (k, q) ∈ done ++ [(seq, p)] := by
            intro k h1 h2
            by_cases hk : k = seq
            · exact ⟨p, by simp [hk]⟩
            · obtain ⟨q, hq⟩ := hd k h1 (by omega); exact ⟨q, List.mem_append_left _ hq⟩
          have := ih (done ++ [(seq, p)]) { packets := t.packets ++ [p], seq := seq } (by simp [he]) ho.2 (by
              simp only [PendingStream.handover, List.flatten_append] at hh ⊢
              rw [hh, hseq, take_succ_of (x := p) (by simpa [hseq] using hv)]
              simp) hd' hr
          refine ⟨this.1, this.2.1, ?_⟩
          intro a ha k h1 h2
          rcases List.mem_cons.mp ha with ha | ha
          · subst ha
            obtain ⟨q, hq⟩ := hd' k h1 h2
            refine ⟨q, ?_⟩
            rw [he]
            rcases List.mem_append.mp hq with hq | hq
            · exact List.mem_append_left _ hq
            · rw [List.mem_singleton] at hq; cases hq; simp
          · exact this.2.2 a ha k h1 h2
  exact key pkts [] (PendingStream.new syn) rfl (by simpa [PendingStream.new] using ho)
    (by unfold PendingStream.handover PendingStream.new; cases syn <;> simp)
    (by intro k h1 h2; simp [PendingStream.new] at h2; omega) hs

/-- C08: at most six payloads are buffered before accept, whatever arrives. -/
theorem C08_pending_buffer_bounded (syn : Bytes) (pkts : List (Nat × Bytes)) (s : PendingStream)
    (hs : (PendingStream.new syn).run pkts = some s) : s.packets.length ≤ 6 := by
  have key : ∀ (rest : List (Nat × Bytes)) (t : PendingStream), t.packets.length ≤ 6 → t.run rest = some s →
      s.packets.length ≤ 6 := by
    intro rest
    induction rest with
    | nil => intro t h hr; cases hr; exact h
    | cons e rest ih =>
      obtain ⟨seq, p⟩ := e
      intro t h hr
      simp only [PendingStream.run, PendingStream.onPacket, Bool.false_eq_true, if_false] at hr
      split at hr
      · cases hr
      · cases hr
      · rename_i heq
        split at heq
        · cases heq; exact ih _ h hr
        · split at heq
          · cases heq; simp_all
          · rename_i hfull
            cases heq
            exact ih _ (by simp only [List.length_append, List.length_singleton]; unfold pendingWindow at hfull; omega) hr
  exact key pkts _ (by unfold PendingStream.new; split <;> simp) hs

/-- Non-trivial instance: SYN payload, then packets 1, 1, 2 in order. -/
example : (PendingStream.new [9]).run [(1, [1]), (1, [1]), (2, [2])] = some { packets := [[9], [1], [2]], seq := 2 } ∧
    InOrder 0 [(1, [1]), (1, [1]), (2, [2])] := by
  constructor
  · decide +kernel
  · simp [InOrder]

end Emissary.Stream
