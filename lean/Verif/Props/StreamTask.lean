import Verif.Lemmas.StreamTx
import Verif.Model.StreamTask
/-!
# C282, C283, C284: how streams end
-/
namespace Emissary.StreamTask
open Emissary Emissary.Stream

/-! ## Specification -/

/-- A packet of the peer acknowledges the packet with the number `k`. -/
def Acknowledges (p : Pkt.Packet) (k : Nat) : Prop := p.flags.noAck = false ∧ k ≤ p.ackThrough ∧ k ∉ p.nacks

/-- One of the packets that came acknowledges the packet with the number `k`. -/
def Acked (ops : List Op) (k : Nat) : Prop := ∃ p room, Op.packet (some p) room ∈ ops ∧ Acknowledges p k

/-! ## The sending half -/

/-- Invariant of the sending half. -/
structure Keep (ops : List Op) (t : Task) : Prop where
  next : t.tx.next = t.made.length + 1
  uval : ∀ e ∈ t.tx.unacked, 1 ≤ e.1 ∧ t.made[e.1 - 1]? = some e.2
  pval : ∀ e ∈ t.tx.pending, 1 ≤ e.1 ∧ t.made[e.1 - 1]? = some e.2
  kept : ∀ k, 1 ≤ k → k ≤ t.made.length → t.tx.holds k ∨ Acked ops k
  closed : t.closeRequested = true → t.readClosed = true
  shape : ∃ parts : List Bytes, (∀ c ∈ parts, c ≠ []) ∧ parts.flatten = t.taken ∧ t.made = parts ++ (if t.closeRequested then [[]] else [])
  acked : t.ended = some .acked → t.closeRequested = true ∧ t.tx.unacked = [] ∧ t.tx.pending = []

theorem Acked.mono {ops more : List Op} {k : Nat} (h : Acked ops k) : Acked (ops ++ more) k := by
  obtain ⟨p, room, h1, h2⟩ := h
  exact ⟨p, room, List.mem_append_left _ h1, h2⟩

theorem Keep.mono {ops more : List Op} {t : Task} (h : Keep ops t) : Keep (ops ++ more) t :=
  ⟨h.next, h.uval, h.pval, fun k h1 h2 => (h.kept k h1 h2).imp id Acked.mono, h.closed, h.shape, h.acked⟩

theorem Keep.new (n : Nat) (init : Option Bytes) : Keep [] (Task.new n init) where
  next := rfl
  uval := by simp [Task.new]
  pval := by simp [Task.new]
  kept := by intro k h1 h2; simp [Task.new] at h2; omega
  closed := by simp [Task.new]
  shape := ⟨[], by simp, rfl, rfl⟩
  acked := by simp [Task.new]

/-- A task whose sending half, history and flags are those of another. -/
theorem Keep.congr {ops : List Op} {t u : Task} (h : Keep ops t) (h1 : u.tx = t.tx) (h2 : u.made = t.made) (h3 : u.closeRequested = t.closeRequested)
    (h4 : t.readClosed = true → u.readClosed = true) (h5 : u.taken = t.taken) (h6 : u.ended = some .acked → t.ended = some .acked) : Keep ops u := by
  obtain ⟨a, b, c, d, e, f, g⟩ := h
  refine ⟨by rw [h1, h2]; exact a, by rw [h1, h2]; exact b, by rw [h1, h2]; exact c, by rw [h1, h2]; exact d, fun hc => h4 (e (by rw [← h3]; exact hc)), ?_, fun hc => ?_⟩
  · rw [h5, h2, h3]; exact f
  · rw [h1, h3]; exact g (h6 hc)

theorem Keep.pop {ops : List Op} {t : Task} (h : Keep ops t) : Keep ops t.pop := by
  unfold Task.pop
  split
  · exact h
  · exact h.congr rfl rfl rfl id rfl id

/-- Packets are made and sent or queued. -/
theorem Keep.sendNew {ops : List Op} {t u : Task} (h : Keep ops t) (cs : List Bytes) (oks : List Bool)
    (h1 : u.tx = (Tx.sendNew { t.tx with next := t.tx.next + cs.length } (number t.tx.next cs) oks).1) (h2 : u.made = t.made ++ cs)
    (h3 : u.closeRequested = true → u.readClosed = true)
    (h4 : ∃ parts : List Bytes, (∀ c ∈ parts, c ≠ []) ∧ parts.flatten = u.taken ∧ u.made = parts ++ (if u.closeRequested then [[]] else []))
    (h5 : u.ended ≠ some .acked) : Keep ops u := by
  obtain ⟨g1, g2, g3, g4, g5, g6, g7, g8, g9, g10, g11⟩ := sendNew_spec { t.tx with next := t.tx.next + cs.length } (number t.tx.next cs) oks
  have hn := h.next
  have hnum : ∀ e ∈ number t.tx.next cs, 1 ≤ e.1 ∧ (t.made ++ cs)[e.1 - 1]? = some e.2 := by
    intro e he
    have := mem_number.mp he
    refine ⟨by omega, ?_⟩
    rw [List.getElem?_append_right (by omega), ← this.2]; congr 1; omega
  refine ⟨?_, ?_, ?_, ?_, h3, h4, fun hc => absurd hc h5⟩
  · rw [h1, g1, h2]; simp; omega
  · rw [h1, h2]
    intro e he
    rcases g8 e he with he | he
    · exact ⟨(h.uval e he).1, getElem?_append_some (h.uval e he).2⟩
    · exact hnum e he
  · rw [h1, h2]
    intro e he
    rcases g9 e he with he | he
    · exact ⟨(h.pval e he).1, getElem?_append_some (h.pval e he).2⟩
    · exact hnum e he
  · intro k k1 k2
    rw [h2, List.length_append] at k2
    rw [h1]
    rcases Nat.lt_or_ge t.made.length k with hk | hk
    · left
      rw [g7]
      right
      have : k - t.tx.next < cs.length := by omega
      exact ⟨cs[k - t.tx.next], mem_number.mpr ⟨by simp only; omega, by simp [this]⟩⟩
    · rcases h.kept k k1 hk with hh | hh
      · left; rw [g7]; exact .inl hh
      · exact .inr hh

theorem Keep.shutdown {ops : List Op} {t : Task} (h : Keep ops t) (hr : t.readClosed = true) (he : t.ended = none) (room : Bool) : Keep ops (t.shutdown room).1 := by
  unfold Task.shutdown
  split
  · exact h
  · rename_i hc
    have hc : t.closeRequested = false := by simpa using hc
    obtain ⟨parts, p1, p2, p3⟩ := h.shape
    simp only [hc, Bool.false_eq_true, if_false, List.append_nil] at p3
    exact h.sendNew [[]] [room] rfl rfl (fun _ => hr) ⟨parts, p1, p2, by simp [p3]⟩ (by simp [he])

theorem handleAcks_keep (tx : Tx) (a : Nat) (ns : List Nat) :
    (tx.handleAcks a ns).next = tx.next ∧ (tx.handleAcks a ns).pending = tx.pending ∧ (∀ e ∈ (tx.handleAcks a ns).unacked, e ∈ tx.unacked) ∧
      ∀ k, tx.holds k → (tx.handleAcks a ns).holds k ∨ (k ≤ a ∧ k ∉ ns) := by
  simp only [Tx.handleAcks]
  split
  · exact ⟨rfl, rfl, fun e he => he, fun k hk => .inl hk⟩
  · have hkeep := has_filter_key (fun k => !acks a ns k) tx.unacked
    refine ⟨rfl, rfl, fun e he => (List.mem_filter.mp he).1, ?_⟩
    rintro k (hk | hk)
    · cases hack : acks a ns k with
      | true => right; simpa [acks] using hack
      | false => left; left; simp only [hkeep]; simp [hk, hack]
    · exact .inl (.inr hk)

theorem Keep.acks {ops : List Op} {t : Task} (h : Keep ops t) (he : t.ended = none) (p : Pkt.Packet) (hp : ∃ room, Op.packet (some p) room ∈ ops) :
    Keep ops (if p.flags.noAck then t else { t with tx := t.tx.handleAcks p.ackThrough p.nacks }) := by
  split
  · exact h
  · rename_i hn
    obtain ⟨g1, g2, g3, g4⟩ := handleAcks_keep t.tx p.ackThrough p.nacks
    obtain ⟨room, hp⟩ := hp
    refine ⟨g1.trans h.next, fun e he => h.uval e (g3 e he), by intro e; simp only; rw [g2]; exact h.pval e, fun k k1 k2 => ?_, h.closed, h.shape, by simp [he]⟩
    rcases h.kept k k1 k2 with hh | hh
    · rcases g4 k hh with hh | hh
      · exact .inl hh
      · exact .inr ⟨p, room, hp, by simpa using hn, hh⟩
    · exact .inr hh

theorem Keep.onPacket {ops : List Op} {t : Task} (h : Keep ops t) (he : t.ended = none) (p : Pkt.Packet) (room : Bool) (hp : ∃ room, Op.packet (some p) room ∈ ops) :
    Keep ops (t.onPacket p room).1 := by
  unfold Task.onPacket
  split
  · exact h.congr rfl rfl rfl id rfl (by simp)
  simp only
  split
  · exact h.congr rfl rfl rfl id rfl (by simp)
  have h1 : Keep ops (if p.flags.close then { t with readClosed := true, inb := { t.inb with closeRequested := true }, ackTimer := true } else t) := by
    split
    · exact h.congr rfl rfl rfl (fun _ => rfl) rfl id
    · exact h
  have he1 : (if p.flags.close then { t with readClosed := true, inb := { t.inb with closeRequested := true }, ackTimer := true } else t).ended = none := by split <;> exact he
  generalize (if p.flags.close then { t with readClosed := true, inb := { t.inb with closeRequested := true }, ackTimer := true } else t) = t1 at h1 he1
  have h2 := h1.acks he1 p hp
  have he2 : (if p.flags.noAck then t1 else { t1 with tx := t1.tx.handleAcks p.ackThrough p.nacks }).ended = none := by split <;> exact he1
  generalize (if p.flags.noAck then t1 else { t1 with tx := t1.tx.handleAcks p.ackThrough p.nacks }) = t2 at h2 he2
  split
  · exact h2.congr rfl rfl rfl id rfl (by simp)
  · exact h2.congr rfl rfl rfl id rfl (by simp)
  · split
    · rename_i hc
      simp only [Bool.and_eq_true, List.isEmpty_iff] at hc
      refine ⟨h2.next, h2.uval, h2.pval, h2.kept, h2.closed, h2.shape, fun _ => ⟨hc.1.1, hc.1.2, hc.2⟩⟩
    · exact h2.congr rfl rfl rfl id rfl id

theorem Keep.step {ops : List Op} {t : Task} (h : Keep ops t) (op : Op) : Keep (ops ++ [op]) (t.step op).1 := by
  have h := h.mono (more := [op])
  unfold Task.step
  split
  · exact h
  rename_i hend
  have he : t.ended = none := by simpa using hend
  cases op with
  | packet p room =>
    simp only
    split
    · exact h
    cases p with
    | none => exact h
    | some p =>
      have := h.onPacket he p room ⟨room, by simp⟩
      simp only
      split
      · exact this
      · exact this.pop
  | shutDown room =>
    simp only
    split
    · exact h
    split
    · exact h.congr rfl rfl rfl (fun _ => rfl) rfl id
    · exact (h.congr (u := { t with writeClosed := true, readClosed := true }) rfl rfl rfl (fun _ => rfl) rfl id).shutdown rfl he room
  | dropped =>
    simp only
    split
    · exact h
    · exact h.congr rfl rfl rfl id rfl (by simp)
  | pathGone => exact h.congr rfl rfl rfl id rfl (by simp)
  | pollEmpty =>
    simp only
    split
    · exact h
    · exact h.pop
  | written n room =>
    simp only
    split
    · exact h
    split
    · exact (h.congr (u := { t with writing := none, writeClosed := true, readClosed := true }) rfl rfl rfl (fun _ => rfl) rfl id).shutdown rfl he room
    · exact h.congr rfl rfl rfl id rfl id
  | read data oks =>
    simp only
    split
    · exact h
    rename_i hc
    have hrc : t.readClosed = false := by
      cases hh : t.readClosed with
      | false => rfl
      | true => simp [hh] at hc
    have hcr : t.closeRequested = false := by
      cases hh : t.closeRequested with
      | false => rfl
      | true => have := h.closed hh; rw [hrc] at this; cases this
    obtain ⟨parts, p1, p2, p3⟩ := h.shape
    simp only [hcr, Bool.false_eq_true, if_false, List.append_nil] at p3
    refine h.sendNew (chunksOf mtu data.length data) oks rfl rfl (by simp [hcr]) ⟨parts ++ chunksOf mtu data.length data, ?_, ?_, by simp [hcr, p3]⟩ (by simp [he])
    · intro c hc
      rcases List.mem_append.mp hc with hc | hc
      · exact p1 c hc
      · exact chunksOf_ne_nil mtu data.length (by decide) data c hc
    · rw [List.flatten_append, p2, chunksOf_flatten mtu _ (by decide) data (Nat.le_refl _)]
  | eof room =>
    simp only
    split
    · exact h
    · exact (h.congr (u := { t with writing := none, writeClosed := true, readClosed := true }) rfl rfl rfl (fun _ => rfl) rfl id).shutdown rfl he room
  | flush oks =>
    simp only [Tx.flush]
    split
    · exact h
    · obtain ⟨g1, g2, g3, g4, g5, g6, g7, g8, g9, g10, g11⟩ :=
        flushKeys_spec t.tx (t.tx.pending.keys.take (min t.tx.pending.length (t.tx.window - t.tx.unacked.length))) oks
      refine ⟨g1.trans h.next, ?_, fun e he => h.pval e (g9 e he), fun k k1 k2 => ?_, h.closed, h.shape, by simp [he]⟩
      · intro e he; rcases g8 e he with he | he
        · exact h.uval e he
        · exact h.pval e he
      · rcases h.kept k k1 k2 with hh | hh
        · exact .inl ((g7 k).mpr hh)
        · exact .inr hh
  | resend e path oks =>
    simp only [Tx.resend]
    split
    · exact h
    · exact ⟨h.next, h.uval, h.pval, h.kept, h.closed, h.shape, h.acked⟩
  | ackTimer room =>
    simp only
    split
    · simp only
      split
      · exact h.congr rfl rfl rfl id rfl (by simp)
      · exact h.congr rfl rfl rfl id rfl id
    · exact h

theorem Keep.run : ∀ (rest : List Op) {ops : List Op} {t : Task}, Keep ops t → Keep (ops ++ rest) (t.run rest).1
  | [], _, _, h => by simpa [Task.run] using h
  | op :: rest, ops, t, h => by
    have := Keep.run rest (h.step op)
    simpa [Task.run, List.append_assoc] using this

/-! ## C282: what a client wrote before it closed is delivered -/

theorem has_val {m : OMap Bytes} {made : List Bytes} {k : Nat} {c : Bytes} (hv : ∀ e ∈ m, 1 ≤ e.1 ∧ made[e.1 - 1]? = some e.2) (hk : m.has k = true)
    (hc : made[k - 1]? = some c) : (k, c) ∈ m := by
  obtain ⟨v, hv'⟩ := Option.isSome_iff_exists.mp (by simpa [OMap.has] using hk)
  have := OMap.mem_of_get? hv'
  have h2 := (hv _ this).2
  simp only at h2
  rw [hc] at h2
  cases h2
  exact this

/-- Whatever happens: the bytes read from the client are, cut into pieces, the payloads of the packets 1, 2, …, followed by an empty `CLOSE` once the client has
closed. Every one of those packets is kept until the peer acknowledges it, and a task that ends because its client has closed has had them all acknowledged. -/
theorem C282_kept_partial (n : Nat) (initial : Option Bytes) (ops : List Op) (t : Task) (ht : ((Task.new n initial).run ops).1 = t) :
    (∃ parts : List Bytes, (∀ c ∈ parts, c ≠ []) ∧ parts.flatten = t.taken ∧ t.made = parts ++ (if t.closeRequested then [[]] else [])) ∧
    (∀ k c, 1 ≤ k → t.made[k - 1]? = some c → (k, c) ∈ t.tx.unacked ∨ (k, c) ∈ t.tx.pending ∨ Acked ops k) ∧
    (t.ended = some .acked → t.closeRequested = true ∧ ∀ k, 1 ≤ k → k ≤ t.made.length → Acked ops k) := by
  have h : Keep ops t := by have := (Keep.new n initial).run ops; rw [ht] at this; simpa using this
  have hlen : ∀ k c, 1 ≤ k → t.made[k - 1]? = some c → k ≤ t.made.length := by
    intro k c k1 hk
    have := (List.getElem?_eq_some_iff.mp hk).1
    omega
  refine ⟨h.shape, fun k c k1 hk => ?_, fun he => ?_⟩
  · rcases h.kept k k1 (hlen k c k1 hk) with (hh | hh) | hh
    · exact .inl (has_val h.uval hh hk)
    · exact .inr (.inl (has_val h.pval hh hk))
    · exact .inr (.inr hh)
  · obtain ⟨h1, h2, h3⟩ := h.acked he
    refine ⟨h1, fun k k1 k2 => ?_⟩
    rcases h.kept k k1 k2 with (hh | hh) | hh
    · rw [h2] at hh; simp [OMap.has, OMap.get?] at hh
    · rw [h3] at hh; simp [OMap.has, OMap.get?] at hh
    · exact hh

/-- And it is sent again: when the retransmission timer of a running task fires, with a path and room in the channel, the oldest unacknowledged packets go out, as many
as have expired and the window admits. -/
theorem C282_sent_again (t : Task) (he : t.ended = none) (expired : Nat) :
    (t.step (.resend expired true [])).2 = ((t.tx.unacked.take expired).take t.tx.window).map fun e => .numbered e.1 e.2 := by
  simp only [Task.step, he, Option.isSome_none, Bool.false_eq_true, if_false, Tx.resend, Bool.not_true, Bool.or_false]
  split
  · rename_i hh
    rw [List.isEmpty_iff.mp hh]
  · simp only [List.getD_nil]
    rw [List.filter_eq_self.mpr (by simp)]
    congr 1
    exact List.zipIdx_map_fst ..

/-- A packet `CLOSE` without data, by its flags. -/
def closePkt (ackThrough : Nat) (nacks : List Nat) : Pkt.Packet :=
  { sendStreamId := 1, recvStreamId := 2, seq := 0, ackThrough, nacks, resendDelay := 0, flags := ⟨none, 2, none, none, none, none⟩, payload := [] }

/-- A packet with data. -/
def dataPkt (seq ackThrough : Nat) (payload : Bytes) : Pkt.Packet :=
  { sendStreamId := 1, recvStreamId := 2, seq, ackThrough, nacks := [], resendDelay := 0, flags := ⟨none, 0, none, none, none, none⟩, payload }

/-- A packet that is only a `CLOSE`: without `SYN`, `RESET` and payload. -/
def OnlyClose (p : Pkt.Packet) : Prop := p.flags.close = true ∧ p.flags.synchronize = false ∧ p.flags.reset = false ∧ p.payload = []

/-- What `on_packet` does with a `CLOSE`. -/
theorem onPacket_close (t : Task) (p : Pkt.Packet) (hp : OnlyClose p) (room : Bool) :
    let t' : Task := { t with readClosed := true, inb := { t.inb with closeRequested := true }, ackTimer := true, tx := if p.flags.noAck then t.tx else t.tx.handleAcks p.ackThrough p.nacks }
    t.onPacket p room = (if t'.closeRequested && t'.tx.unacked.isEmpty && t'.tx.pending.isEmpty then { t' with ended := some .acked } else t', []) := by
  obtain ⟨h1, h2, h3, h4⟩ := hp
  intro t'
  cases hn : p.flags.noAck <;> simp only [t', hn, Task.onPacket, h1, h2, h3, h4, Bool.false_and, Bool.false_eq_true, if_false, if_true, List.isEmpty_nil, Bool.not_true, Bool.or_false] <;>
    split <;> simp_all

/-- The code throws it away when the peer closes: for every running stream that misses nothing of the peer, after a `CLOSE` of the peer and the acknowledgement timer
the task is over, although a packet with what the client wrote is not acknowledged, or has never been sent. -/
theorem C282_peer_closes_violated (t : Task) (he : t.ended = none) (hw : t.writing = none) (hm : t.inb.missing = []) (p : Pkt.Packet) (hp : OnlyClose p) (room room' : Bool)
    (k : Nat) (c : Bytes) (hk : (k, c) ∈ t.tx.pending ∨ ((k, c) ∈ t.tx.unacked ∧ ¬ Acknowledges p k)) :
    (t.run [.packet (some p) room, .ackTimer room']).1.ended = some .peerClosed ∧
      ((k, c) ∈ (t.run [.packet (some p) room, .ackTimer room']).1.tx.pending ∨ (k, c) ∈ (t.run [.packet (some p) room, .ackTimer room']).1.tx.unacked) := by
  have hh : ∀ tx' : Tx, tx' = (if p.flags.noAck then t.tx else t.tx.handleAcks p.ackThrough p.nacks) → (k, c) ∈ tx'.pending ∨ (k, c) ∈ tx'.unacked := by
    intro tx' htx
    rw [htx]
    cases hn : p.flags.noAck with
    | true =>
      simp only [if_true]
      exact hk.imp id And.left
    | false =>
      simp only [Bool.false_eq_true, if_false]
      refine hk.imp (fun h => ?_) (fun h => ?_)
      · rw [(handleAcks_keep ..).2.1]; exact h
      · simp only [Tx.handleAcks]
        split
        · exact h.1
        · refine List.mem_filter.mpr ⟨h.1, ?_⟩
          have h2 := h.2
          simp only [Acknowledges, hn, true_and, not_and] at h2
          simp only [acks, Bool.not_eq_true', Bool.and_eq_false_iff, decide_eq_false_iff_not]
          by_cases h3 : k ≤ p.ackThrough
          · right; simpa using h2 h3
          · exact .inl h3
  have h0 := onPacket_close t p hp room
  simp only at h0
  have hq := hh _ rfl
  generalize (if p.flags.noAck then t.tx else t.tx.handleAcks p.ackThrough p.nacks) = tx' at *
  have hne : (t.closeRequested && tx'.unacked.isEmpty && tx'.pending.isEmpty) = false := by
    rcases hq with h | h
    · have : tx'.pending ≠ [] := fun h' => by rw [h'] at h; cases h
      simp [this]
    · have : tx'.unacked ≠ [] := fun h' => by rw [h'] at h; cases h
      simp [this]
  simp only [hne, Bool.false_eq_true, if_false] at h0
  simp only [Task.run, Task.step, he, hw, h0, Option.isSome_none, Bool.false_eq_true, if_false, Bool.false_or]
  cases hwc : t.writeClosed with
  | true => simp [Inbound.canClose, hm, hq]
  | false =>
    simp only [Bool.false_eq_true, if_false, Task.pop]
    split <;> simp [Inbound.canClose, hm, hq]

-- A client that has written two bytes, whose peer closes at once; and one that has everything acknowledged.
example : let t := ((Task.new 0 none).run [.read [7, 8] [true]]).1
    (t.ended, t.writing, t.inb.missing, t.tx.unacked) = (none, none, [], [(1, [7, 8])]) ∧ ¬ Acknowledges (closePkt 0 []) 1 ∧ OnlyClose (closePkt 0 []) := by
  refine ⟨by decide +kernel, ?_, by decide, by decide, by decide, rfl⟩
  intro h; exact absurd h.2.1 (by decide)
example : let t := ((Task.new 0 none).run [.read [7, 8] [true], .eof true, .packet (some (dataPkt 0 1 [])) true, .flush [true], .packet (some (dataPkt 0 2 [])) true]).1
    t.ended = some .acked ∧ t.made = [[7, 8], []] := by decide +kernel

/-! ## C283: each direction of a stream closes on its own -/

theorem step_done (t : Task) (op : Op) (hc : t.writeClosed = true) (hw : t.writing = none) :
    (t.step op).1.writeClosed = true ∧ (t.step op).1.writing = none ∧ (t.step op).1.out = t.out := by
  unfold Task.step
  split
  · exact ⟨hc, hw, rfl⟩
  cases op with
  | packet p room =>
    simp only [hw, Option.isSome_none, Bool.false_eq_true, if_false]
    cases p with
    | none => exact ⟨hc, hw, rfl⟩
    | some p =>
      have hp : (t.onPacket p room).1.writeClosed = true ∧ (t.onPacket p room).1.writing = none ∧ (t.onPacket p room).1.out = t.out := by
        unfold Task.onPacket
        repeat' split
        all_goals simp only
        all_goals repeat' split
        all_goals first | exact ⟨hc, hw, rfl⟩ | simp_all
      have h2 : ((t.onPacket p room).1.ended.isSome || (t.onPacket p room).1.writeClosed) = true := by rw [hp.1, Bool.or_true]
      simp only
      rw [if_pos h2]
      exact hp
  | shutDown room => simp [hw, hc]
  | dropped => simp [hw, hc]
  | pathGone => simp [hw, hc]
  | pollEmpty => simp [hw, hc]
  | written n room => simp [hw, hc]
  | read data oks =>
    simp only
    split <;> exact ⟨hc, hw, rfl⟩
  | eof room =>
    simp only [Task.shutdown]
    repeat' split
    all_goals first | exact ⟨hc, hw, rfl⟩ | exact ⟨rfl, rfl, rfl⟩
  | flush oks => exact ⟨hc, hw, rfl⟩
  | resend e path oks => exact ⟨hc, hw, rfl⟩
  | ackTimer room =>
    simp only
    repeat' split
    all_goals exact ⟨hc, hw, rfl⟩

theorem run_done : ∀ (ops : List Op) (t : Task), t.writeClosed = true → t.writing = none → (t.run ops).1.out = t.out
  | [], _, _, _ => rfl
  | op :: ops, t, hc, hw => by
    obtain ⟨h1, h2, h3⟩ := step_done t op hc hw
    simp only [Task.run]
    rw [run_done ops _ h1 h2, h3]

/-- The code gives the client nothing after the client has stopped writing: whatever arrives later, not even the rest of a message of which a part was given. -/
theorem C283_client_done_violated (t : Task) (he : t.ended = none) (hr : t.readClosed = false) (hp : t.tx.pending = []) (room : Bool) (later : List Op) :
    (t.run (.eof room :: later)).1.out = t.out := by
  have h : (t.step (.eof room)).1.writeClosed = true ∧ (t.step (.eof room)).1.writing = none ∧ (t.step (.eof room)).1.out = t.out := by
    simp only [Task.step, he, hr, hp, Option.isSome_none, Bool.false_eq_true, if_false, List.isEmpty_nil, Bool.not_true, Bool.or_false, Task.shutdown]
    split <;> exact ⟨rfl, rfl, rfl⟩
  simp only [Task.run]
  rw [run_done later _ h.1 h.2.1, h.2.2]

theorem step_closed (t : Task) (op : Op) (hr : t.readClosed = true) : (t.step op).1.readClosed = true ∧ (t.step op).1.taken = t.taken := by
  unfold Task.step
  split
  · exact ⟨hr, rfl⟩
  cases op with
  | packet p room =>
    simp only
    split
    · exact ⟨hr, rfl⟩
    cases p with
    | none => exact ⟨hr, rfl⟩
    | some p =>
      have hp : (t.onPacket p room).1.readClosed = true ∧ (t.onPacket p room).1.taken = t.taken := by
        unfold Task.onPacket
        repeat' split
        all_goals simp only
        all_goals repeat' split
        all_goals first | exact ⟨hr, rfl⟩ | exact ⟨rfl, rfl⟩ | simp_all
      simp only [Task.pop]
      repeat' split
      all_goals exact hp
  | read data oks => simp [hr]
  | eof room => simp [hr]
  | shutDown room => simp only [Task.shutdown]; repeat' split
                     all_goals first | exact ⟨hr, rfl⟩ | exact ⟨rfl, rfl⟩
  | written n room => simp only [Task.shutdown]; repeat' split
                      all_goals first | exact ⟨hr, rfl⟩ | exact ⟨rfl, rfl⟩
  | dropped => simp only; split <;> exact ⟨hr, rfl⟩
  | pathGone => exact ⟨hr, rfl⟩
  | pollEmpty => simp only [Task.pop]; repeat' split
                 all_goals exact ⟨hr, rfl⟩
  | flush oks => exact ⟨hr, rfl⟩
  | resend e path oks => exact ⟨hr, rfl⟩
  | ackTimer room =>
    simp only
    repeat' split
    all_goals exact ⟨hr, rfl⟩

theorem run_closed : ∀ (ops : List Op) (t : Task), t.readClosed = true → (t.run ops).1.taken = t.taken
  | [], _, _ => rfl
  | op :: ops, t, hr => by
    obtain ⟨h1, h2⟩ := step_closed t op hr
    simp only [Task.run]
    rw [run_closed ops _ h1, h2]

/-- The code takes nothing from the client after the peer has stopped writing: whatever the client writes later stays in its socket. -/
theorem C283_peer_done_violated (t : Task) (he : t.ended = none) (hw : t.writing = none) (p : Pkt.Packet) (hp : OnlyClose p) (room : Bool) (later : List Op) :
    (t.run (.packet (some p) room :: later)).1.taken = t.taken := by
  have h : (t.step (.packet (some p) room)).1.readClosed = true ∧ (t.step (.packet (some p) room)).1.taken = t.taken := by
    have h0 := onPacket_close t p hp room
    simp only at h0
    simp only [Task.step, he, hw, Option.isSome_none, Bool.false_eq_true, if_false, h0, Task.pop]
    repeat' split
    all_goals exact ⟨rfl, rfl⟩
  simp only [Task.run]
  rw [run_closed later _ h.1, h.2]

-- A client that sends a request and shuts its half of the connection never sees the answer.
example : let t := ((Task.new 0 none).run [.read [1, 2] [true]]).1
    t.ended = none ∧ t.readClosed = false ∧ t.tx.pending = [] ∧
      (t.run [.packet (some (dataPkt 1 1 [9, 9])) true, .written 5 true]).1.out = [9, 9] ∧
      (t.run [.eof true, .packet (some (dataPkt 1 1 [9, 9])) true, .written 5 true]).1.out = [] := by decide +kernel

/-- The receiving half of the task. -/
def Task.rx (t : Task) : Rx := { inb := t.inb, writing := t.writing, sockClosed := t.writeClosed, out := t.out }

theorem rx_pop (t : Task) : t.pop.rx = t.rx.pop := by
  unfold Task.pop Rx.pop
  simp only [Task.rx]
  split <;> simp_all

theorem rx_inv_onPacket {base : Nat} {init : Bytes} {payloads : List Bytes} {rcv : Nat → Prop} {popped : List Bytes} {n : Nat} {t : Task}
    (h : RxInv base init payloads rcv t.rx popped n) (p : Pkt.Packet) (room : Bool)
    (hp : p.payload ≠ [] → base < p.seq → payloads[p.seq - base - 1]? = some p.payload) :
    ∃ rcv' n', RxInv base init payloads rcv' (t.onPacket p room).1.rx popped n' ∧ ∀ x, rcv' x → rcv x ∨ (p.seq = x ∧ p.payload ≠ []) := by
  unfold Task.onPacket
  split
  · exact ⟨rcv, n, h, fun _ => .inl⟩
  simp only
  split
  · exact ⟨rcv, n, h, fun _ => .inl⟩
  have h1 : RxInv base init payloads rcv (if p.flags.close then { t with readClosed := true, inb := { t.inb with closeRequested := true }, ackTimer := true } else t).rx popped n := by
    split
    · exact ⟨⟨h.inb.n_le, h.inb.cur_le, h.inb.released, h.inb.sorted, h.inb.miss_rng, h.inb.cover, h.inb.head, h.inb.pend_rng, h.inb.pend_val, h.inb.recvd⟩,
        h.out_pre, h.out_eq, h.closed⟩
    · exact h
  generalize (if p.flags.close then { t with readClosed := true, inb := { t.inb with closeRequested := true }, ackTimer := true } else t) = t1 at h1
  have h2 : RxInv base init payloads rcv (if p.flags.noAck then t1 else { t1 with tx := t1.tx.handleAcks p.ackThrough p.nacks }).rx popped n := by
    split
    · exact h1
    · exact h1
  generalize (if p.flags.noAck then t1 else { t1 with tx := t1.tx.handleAcks p.ackThrough p.nacks }) = t2 at h2
  split
  · exact ⟨rcv, n, h2, fun _ => .inl⟩
  · exact ⟨rcv, n, h2, fun _ => .inl⟩
  · rename_i inb hok
    have : ∃ rcv' n', Inv base payloads rcv' popped n' inb ∧ ∀ x, rcv' x → rcv x ∨ (p.seq = x ∧ p.payload ≠ []) := by
      split at hok
      · cases hok; exact ⟨rcv, n, h2.inb, fun _ => .inl⟩
      · rename_i hne
        have hne : p.payload ≠ [] := by intro h0; simp [h0] at hne
        obtain ⟨n', h', _⟩ := h2.inb.handlePacket (fun hb => hp hne hb) hok
        exact ⟨_, n', h', fun x hx => hx.imp id fun he => ⟨he.symm, hne⟩⟩
    obtain ⟨rcv', n', h', hr⟩ := this
    split
    · exact ⟨rcv', n', ⟨h', h2.out_pre, h2.out_eq, h2.closed⟩, hr⟩
    · exact ⟨rcv', n', ⟨h', h2.out_pre, h2.out_eq, h2.closed⟩, hr⟩

theorem shutdown_rx (t : Task) (room : Bool) : (t.shutdown room).1.rx = t.rx := by
  unfold Task.shutdown; split <;> rfl

/-- The packets of the peer carry, under their numbers, the consecutive parts of what the peer writes. -/
def Honest (base : Nat) (payloads : List Bytes) (ops : List Op) : Prop :=
  ∀ p room, Op.packet (some p) room ∈ ops → p.payload ≠ [] → base < p.seq → payloads[p.seq - base - 1]? = some p.payload

theorem rx_inv_step {base : Nat} {init : Bytes} {payloads : List Bytes} {rcv : Nat → Prop} {popped : List Bytes} {n : Nat} {t : Task}
    (h : RxInv base init payloads rcv t.rx popped n) (op : Op)
    (hp : ∀ p room, op = .packet (some p) room → p.payload ≠ [] → base < p.seq → payloads[p.seq - base - 1]? = some p.payload) :
    ∃ rcv' popped' n', RxInv base init payloads rcv' (t.step op).1.rx popped' n' ∧ ∀ x, rcv' x → rcv x ∨ ∃ p room, op = .packet (some p) room ∧ p.seq = x ∧ p.payload ≠ [] := by
  have hshut : ∀ u : Task, u.inb = t.inb → u.out = t.out → u.writing = none → u.writeClosed = true → ∀ room, ∃ rcv' popped' n', RxInv base init payloads rcv' (u.shutdown room).1.rx popped' n' ∧ ∀ x, rcv' x → rcv x ∨ ∃ p room, op = .packet (some p) room ∧ p.seq = x ∧ p.payload ≠ [] := by
    intro u h1 h2 h3 h4 room
    rw [shutdown_rx]
    refine ⟨rcv, popped, n, ⟨by simp only [Task.rx, h1]; exact h.inb, by simp only [Task.rx, h2]; exact h.out_pre, by simp [Task.rx, h4], by simp [Task.rx, h3]⟩, fun _ => .inl⟩
  unfold Task.step
  split
  · exact ⟨_, _, _, h, fun _ => .inl⟩
  cases op with
  | packet p room =>
    simp only
    split
    · exact ⟨_, _, _, h, fun _ => .inl⟩
    rename_i hw
    have hw : t.writing = none := by simpa using hw
    cases p with
    | none => exact ⟨_, _, _, h, fun _ => .inl⟩
    | some p =>
      obtain ⟨rcv', n', h', hr⟩ := rx_inv_onPacket h p room (hp p room rfl)
      have hw' : (t.onPacket p room).1.writing = none := by
        unfold Task.onPacket
        repeat' split
        all_goals simp only
        all_goals repeat' split
        all_goals exact hw
      simp only
      split
      · exact ⟨_, _, _, h', fun x hx => (hr x hx).imp id fun he => ⟨p, room, rfl, he⟩⟩
      · rename_i hc
        rw [rx_pop]
        simp only [Bool.or_eq_true, not_or, Bool.not_eq_true] at hc
        obtain ⟨popped', h''⟩ := h'.pop hc.2 hw'
        exact ⟨_, _, _, h'', fun x hx => (hr x hx).imp id fun he => ⟨p, room, rfl, he⟩⟩
  | shutDown room =>
    simp only
    split
    · exact ⟨_, _, _, h, fun _ => .inl⟩
    rename_i hw
    split
    · exact ⟨_, _, _, h, fun _ => .inl⟩
    · exact hshut { t with writeClosed := true, readClosed := true } rfl rfl (by simpa using hw) rfl room
  | dropped => simp only; split <;> exact ⟨_, _, _, h, fun _ => .inl⟩
  | pathGone => exact ⟨_, _, _, h, fun _ => .inl⟩
  | pollEmpty =>
    simp only
    split
    · exact ⟨_, _, _, h, fun _ => .inl⟩
    · rename_i hc
      rw [rx_pop]
      simp only [Bool.or_eq_true, not_or, Bool.not_eq_true] at hc
      obtain ⟨popped', h''⟩ := h.pop hc.2 (show t.writing = none by simpa using hc.1)
      exact ⟨_, _, _, h'', fun _ => .inl⟩
  | written k room =>
    obtain ⟨rcv', popped', n', h', _, hr⟩ := h.step (.write k) (by intro _ _ hh; cases hh)
    simp only [Rx.step, Task.rx] at h'
    simp only
    cases hw : t.writing with
    | none => exact ⟨_, _, _, h, fun _ => .inl⟩
    | some x =>
      obtain ⟨off, m⟩ := x
      simp only
      split
      · exact hshut { t with writing := none, writeClosed := true, readClosed := true } rfl rfl rfl rfl room
      · rename_i hk
        simp only [hw, hk, if_false, ne_eq, not_true_eq_false] at h'
        exact ⟨_, _, _, h', fun x hx => (hr x hx).imp id fun ⟨_, he⟩ => by cases he⟩
  | read data oks => simp only; split <;> exact ⟨_, _, _, h, fun _ => .inl⟩
  | eof room =>
    simp only
    split
    · exact ⟨_, _, _, h, fun _ => .inl⟩
    · exact hshut { t with writing := none, writeClosed := true, readClosed := true } rfl rfl rfl rfl room
  | flush oks => exact ⟨_, _, _, h, fun _ => .inl⟩
  | resend e path oks => exact ⟨_, _, _, h, fun _ => .inl⟩
  | ackTimer room =>
    simp only
    repeat' split
    all_goals exact ⟨_, _, _, h, fun _ => .inl⟩

/-- A packet with data and the number `x` has come. -/
def Came (ops : List Op) (x : Nat) : Prop := ∃ p room, Op.packet (some p) room ∈ ops ∧ p.seq = x ∧ p.payload ≠ []

theorem rx_inv_run {base : Nat} {init : Bytes} {payloads : List Bytes} : ∀ (ops : List Op) (t : Task) (rcv : Nat → Prop) (popped : List Bytes) (n : Nat),
    RxInv base init payloads rcv t.rx popped n → Honest base payloads ops →
    ∃ rcv' popped' n', RxInv base init payloads rcv' (t.run ops).1.rx popped' n' ∧ ∀ x, rcv' x → rcv x ∨ Came ops x
  | [], _, rcv, popped, n, h, _ => ⟨rcv, popped, n, h, fun _ => .inl⟩
  | op :: ops, t, rcv, popped, n, h, hp => by
    obtain ⟨rcv', popped', n', h', hr⟩ := rx_inv_step h op (fun p room he => hp p room (by simp [he]))
    simp only [Task.run]
    obtain ⟨rcv2, popped2, n2, h2, hr2⟩ := rx_inv_run ops _ rcv' popped' n' h' (fun p room he => hp p room (List.mem_cons_of_mem _ he))
    refine ⟨rcv2, popped2, n2, h2, fun x hx => ?_⟩
    rcases hr2 x hx with hx | ⟨p, room, h1, h3⟩
    · exact (hr x hx).imp id fun ⟨p, room, h1, h3⟩ => ⟨p, room, by simp [h1], h3⟩
    · exact .inr ⟨p, room, List.mem_cons_of_mem _ h1, h3⟩

/-- Until then the two directions do not disturb each other: whatever else happens, what the client has been given is a beginning of what the peer wrote, and as long as
the client's socket is open for writing nothing is lost: what it has been given, with the rest of the message being written and the messages that are ready, is all
that the peer wrote before the first gap. -/
theorem C283_delivered_partial (base : Nat) (initial : Option Bytes) (payloads : List Bytes) (ops : List Op) (hp : Honest base payloads ops) (t : Task)
    (ht : ((Task.new base initial).run ops).1 = t) :
    t.out <+: initial.getD [] ++ payloads.flatten ∧
      (t.writeClosed = false → ∃ m, t.out ++ t.rx.remaining ++ t.inb.ready.flatten = initial.getD [] ++ (payloads.take m).flatten ∧
        (t.inb.missing = [] → base + m = t.inb.cur) ∧ ∀ x ∈ t.inb.missing, base + m < x) := by
  have h0 : RxInv base (initial.getD []) payloads (fun x => x ≤ base) (Task.new base initial).rx [] 0 := RxInv.new base initial payloads
  obtain ⟨rcv, popped, m, h, _⟩ := rx_inv_run ops _ _ _ _ h0 hp
  rw [ht] at h
  have hrel := h.inb.released
  have hin : t.rx.inb = t.inb := rfl
  rw [hin] at hrel
  constructor
  · have h1 : popped <+: payloads := by
      have : popped <+: payloads.take m := ⟨t.inb.ready, hrel⟩
      exact this.trans (List.take_prefix _ _)
    obtain ⟨w, hw⟩ := h1
    refine List.IsPrefix.trans h.out_pre ⟨w.flatten, ?_⟩
    rw [← hw, List.flatten_append, List.append_assoc]
  · intro hc
    refine ⟨m, ?_, fun hm => ?_, fun x hx => (h.inb.miss_rng x hx).1⟩
    · have h2 := h.out_eq hc
      have hout : t.rx.out = t.out := rfl
      rw [hout] at h2
      rw [h2, ← hrel, List.flatten_append, List.append_assoc]
    · have h3 := h.inb.n_le
      rw [hin] at h3
      rcases Nat.lt_or_ge (base + m) t.inb.cur with hlt | hge
      · have := h.inb.head hlt
        rw [hin, hm] at this; cases this
      · omega

/-- In any history, an acknowledgement that is sent while no more than 255 packets are missing covers only packets that have come: what lies up to the
number it names and is not among those it names as missing. -/
theorem C283_acknowledges (base : Nat) (initial : Option Bytes) (payloads : List Bytes) (ops : List Op) (hp : Honest base payloads ops) (t : Task)
    (ht : ((Task.new base initial).run ops).1 = t) (he : t.ended = none) (room : Bool) (a : Nat) (ns : List Nat) (choke close : Bool)
    (hs : .plain a ns choke close ∈ (t.step (.ackTimer room)).2) (hm : t.inb.missing.length ≤ 255) (x : Nat) (hx : base < x) (hxa : x ≤ a) (hxn : x ∉ ns) :
    Came ops x := by
  have h0 : RxInv base (initial.getD []) payloads (fun x => x ≤ base) (Task.new base initial).rx [] 0 := RxInv.new base initial payloads
  obtain ⟨rcv, popped, m, h, hr⟩ := rx_inv_run ops _ _ _ _ h0 hp
  rw [ht] at h
  simp only [Task.step, he, Option.isSome_none, Bool.false_eq_true, if_false] at hs
  split at hs
  · simp only at hs
    split at hs
    · simp only [List.mem_singleton, Sent.plain.injEq] at hs
      obtain ⟨rfl, rfl, -, -⟩ := hs
      rw [List.take_of_length_le (show t.inb.missing.length ≤ maxNacks from hm)] at hxn
      rcases hr x ((h.inb.recvd x hx).mpr ⟨hxa, hxn⟩) with h1 | h1
      · omega
      · exact h1
    · cases hs
  · cases hs

/-- A task does not end at the peer's `CLOSE` as long as a packet is missing: when it ends at an acknowledgement, the peer has asked for it, and every packet up to the one
with the highest number has come; the acknowledgement says so, and closes the other end too. -/
theorem C283_complete (base : Nat) (initial : Option Bytes) (payloads : List Bytes) (ops : List Op) (hp : Honest base payloads ops) (t : Task)
    (ht : ((Task.new base initial).run ops).1 = t) (he : t.ended = none) (room : Bool) (hend : (t.step (.ackTimer room)).1.ended ≠ none) :
    (∀ x, base < x → x ≤ t.inb.cur → Came ops x) ∧ t.inb.closeRequested = true ∧
      (t.step (.ackTimer room)).2 = if room then [.plain t.inb.cur [] false true] else [] := by
  have h0 : RxInv base (initial.getD []) payloads (fun x => x ≤ base) (Task.new base initial).rx [] 0 := RxInv.new base initial payloads
  obtain ⟨rcv, popped, m, h, hr⟩ := rx_inv_run ops _ _ _ _ h0 hp
  rw [ht] at h
  simp only [Task.step, he, Option.isSome_none, Bool.false_eq_true, if_false] at hend ⊢
  split at hend
  · rename_i ha
    rw [if_pos ha]
    simp only at hend
    split at hend
    · rename_i hc
      simp only [hc]
      simp only [Inbound.canClose, Bool.and_eq_true, List.isEmpty_iff] at hc
      refine ⟨fun x hx hxa => ?_, hc.1, ?_⟩
      · rcases hr x ((h.inb.recvd x hx).mpr ⟨hxa, by show x ∉ t.inb.missing; rw [hc.2]; simp⟩) with h1 | h1
        · omega
        · exact h1
      · simp only [hc.2, List.take_nil, List.length_nil]
        rfl
    · simp at hend
  · exact absurd he hend

-- A peer's second packet arrives before its first one.
example : Honest 0 [[1], [2, 3]] [.packet (some (dataPkt 2 0 [2, 3])) true, .packet (some (dataPkt 1 0 [1])) true, .written 1 true, .pollEmpty, .written 1 true] ∧
    ((Task.new 0 none).run [.packet (some (dataPkt 2 0 [2, 3])) true, .packet (some (dataPkt 1 0 [1])) true, .written 1 true, .pollEmpty, .written 1 true]).1.out = [1, 2] := by
  refine ⟨?_, by decide +kernel⟩
  intro p room hp
  simp only [List.mem_cons, Op.packet.injEq, Option.some.injEq, List.not_mem_nil, or_false, reduceCtorEq] at hp
  rcases hp with ⟨rfl, _⟩ | ⟨rfl, _⟩ <;> intro _ _ <;> decide

-- The acknowledgement after the second packet alone names the first one as missing.
example : ((Task.new 0 none).run [.packet (some (dataPkt 2 0 [2, 3])) true, .ackTimer true]).2 = [.plain 2 [1] false false] := by decide +kernel

-- A `CLOSE` overtakes the first packet: the task ends only once that has come.
example : ((Task.new 0 none).run [.packet (some (dataPkt 2 0 [2, 3])) true, .packet (some (closePkt 0 [])) true, .ackTimer true]).1.ended = none ∧
    ((Task.new 0 none).run [.packet (some (dataPkt 2 0 [2, 3])) true, .packet (some (closePkt 0 [])) true, .ackTimer true, .packet (some (dataPkt 1 0 [1])) true,
      .ackTimer true]).1.ended = some .peerClosed := by decide +kernel

/-! ## C284: a stream whose peer has vanished ends -/

/-- Something comes from outside: a packet of the peer, the loss of the path, the end of the manager. -/
def Op.outside : Op → Bool
  | .packet .. => true
  | .dropped => true
  | .pathGone => true
  | _ => false

theorem step_alone (t : Task) (op : Op) (ho : op.outside = false) (he : t.ended = none) (hc : t.inb.closeRequested = false) :
    (t.step op).1.ended = none ∧ (t.step op).1.inb.closeRequested = false := by
  unfold Task.step
  simp only [he, Option.isSome_none, Bool.false_eq_true, if_false]
  cases op with
  | packet p room => cases ho
  | dropped => cases ho
  | pathGone => cases ho
  | shutDown room => simp only [Task.shutdown]; repeat' split
                     all_goals first | exact ⟨he, hc⟩ | exact ⟨rfl, hc⟩
  | written n room => simp only [Task.shutdown]; repeat' split
                      all_goals first | exact ⟨he, hc⟩ | exact ⟨rfl, hc⟩
  | pollEmpty => simp only [Task.pop]; repeat' split
                 all_goals first | exact ⟨he, hc⟩ | exact ⟨rfl, hc⟩
  | eof room => simp only [Task.shutdown]; repeat' split
                all_goals first | exact ⟨he, hc⟩ | exact ⟨rfl, hc⟩
  | read data oks => simp only; split <;> first | exact ⟨he, hc⟩ | exact ⟨rfl, hc⟩
  | flush oks => first | exact ⟨he, hc⟩ | exact ⟨rfl, hc⟩
  | resend e path oks => first | exact ⟨he, hc⟩ | exact ⟨rfl, hc⟩
  | ackTimer room =>
    simp only [Inbound.canClose, hc, Bool.false_and, Bool.false_eq_true, if_false]
    split <;> first | exact ⟨he, hc⟩ | exact ⟨rfl, hc⟩

/-- The code never gives up: a running stream whose peer has not closed goes on for ever if nothing comes from outside any more, however often its packets are sent
again, and also after the client has closed it or the session has asked it to shut down. -/
theorem C284_vanished_violated : ∀ (ops : List Op) (t : Task), (∀ op ∈ ops, op.outside = false) → t.ended = none → t.inb.closeRequested = false →
    (t.run ops).1.ended = none
  | [], _, _, he, _ => he
  | op :: ops, t, ho, he, hc => by
    obtain ⟨h1, h2⟩ := step_alone t op (ho op (by simp)) he hc
    exact C284_vanished_violated ops _ (fun o h => ho o (List.mem_cons_of_mem _ h)) h1 h2

/-- What ends it at once: the loss of the path, a `RESET` of the peer, and, at the next acknowledgement, the `CLOSE` of a peer of which nothing is missing. -/
theorem C284_ends_partial (t : Task) (he : t.ended = none) :
    (t.step .pathGone).1.ended = some .pathGone ∧
    (t.writing = none → ∀ p, p.flags.reset = true → ∀ room, (t.step (.packet (some p) room)).1.ended ≠ none) ∧
    (t.writing = none → t.inb.missing = [] → ∀ p, OnlyClose p → ∀ room room', (t.run [.packet (some p) room, .ackTimer room']).1.ended ≠ none) := by
  refine ⟨by simp [Task.step, he], fun hw p hp room => ?_, fun hw hm p hp room room' => ?_⟩
  · simp only [Task.step, he, hw, Option.isSome_none, Bool.false_eq_true, if_false, Task.onPacket, hp, if_true]
    split <;> simp
  · have h0 := onPacket_close t p hp room
    simp only at h0
    simp only [Task.run, Task.step, he, hw, h0, Option.isSome_none, Bool.false_eq_true, if_false, Bool.false_or, Task.pop]
    repeat' split
    all_goals simp_all [Inbound.canClose]

-- A hundred retransmissions after the client has closed.
example : let ops := [Op.read [1, 2, 3] [true], .eof true] ++ List.replicate 100 (.resend 2 true [true, true])
    (∀ op ∈ ops, op.outside = false) ∧ ((Task.new 0 none).run ops).1.ended = none ∧ ((Task.new 0 none).run ops).2.length = 101 := by
  decide +kernel
example : (dataPkt 0 0 []).flags.reset = false ∧ ((Task.new 0 none).step (.packet (some { closePkt 0 [] with flags := ⟨none, 4, none, none, none, none⟩ }) true)).1.ended = some .reset := by
  decide +kernel

end Emissary.StreamTask
