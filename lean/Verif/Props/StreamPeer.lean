import Verif.Props.StreamFirst
import Verif.Props.StreamHandshake
import Verif.Props.Wire
/-!
# C286, C287, C288: streams with peers of any implementation
-/
namespace Emissary.StreamPeer
open Emissary Emissary.Prim Emissary.Pkt Emissary.Mgr Emissary.Wire Emissary.StreamTask

/-! ## Specification -/

/-- A destination of any implementation: with a key of any kind that is known, and signatures that verify under it. -/
structure Peer (E : Env) where
  dest : Destination
  sign : Bytes → Bytes
  parses : ∀ r, Destination.parse E (dest.serialized ++ r) = some (dest, r)
  size : dest.serialized.length + dest.key.sigLen < 60000
  len : ∀ m, (sign m).length = dest.key.sigLen
  ok : ∀ m, E.verify dest.key m (sign m) = true

/-- What the peer chooses for its first packet. -/
structure Opening where
  id : Nat
  ack : Nat := 0
  resend : Nat := 0
  delay : Option Nat := none
  mtu : Option Nat := none
  echo : Bool := false
  noAck : Bool := false
  payload : Bytes := []

/-- What it chooses fits into the fields. -/
structure Opening.Fits (o : Opening) : Prop where
  id : o.id < 2 ^ 32
  ack : o.ack < 2 ^ 32
  resend : o.resend < 256
  delay : ∀ d, o.delay = some d → d < 2 ^ 16
  mtu : ∀ d, o.mtu = some d → d < 2 ^ 16

/-- The fields of a `SYN` by the streaming specification, with the signature given. -/
def synFields {E : Env} (P : Peer E) (o : Opening) (send : Nat) (nacks : List Nat) (sig : Bytes) : List Field :=
  streamPacket send o.id 0 o.ack nacks o.resend (streamFlags true false false true true o.delay.isSome o.mtu.isSome o.echo o.noAck)
    (streamOptions o.delay (some P.dest.serialized) o.mtu (some sig)) o.payload

/-- The `SYN`: signed over itself with zeros in the place of the signature. -/
def Peer.syn {E : Env} (P : Peer E) (o : Opening) (send : Nat) (nacks : List Nat) : Bytes :=
  layout (synFields P o send nacks (P.sign (layout (synFields P o send nacks (List.replicate P.dest.key.sigLen 0)))))

/-- The numbers in the NACK field are the hash of the destination that is addressed. -/
def HashOf (nacks : List Nat) (hash : Bytes) : Prop := nacks.length = 8 ∧ (nacks.map (be 4)).flatten = hash

/-! ## The first packet of the peer -/

theorem peer_signed {E : Env} (P : Peer E) (o : Opening) (ho : o.Fits) (send : Nat) (hsend : send < 2 ^ 32) (nacks : List Nat) (hn : nacks.length ≤ 255) (hn' : ∀ n ∈ nacks, n < 2 ^ 32) :
    ∃ p, SignedSyn E (P.syn o send nacks) p P.dest ∧ p.sendStreamId = send ∧ p.recvStreamId = o.id ∧ p.nacks = nacks ∧ p.payload = o.payload := by
  let b : Builder := {
    sendStreamId := send, recvStreamId := o.id, ackThrough := o.ack, nacks := some nacks, resendDelay := o.resend, synchronize := true, signature := true,
    destination := some P.dest, requestedDelay := o.delay, maxPacketSize := o.mtu, echo := o.echo, noAck := o.noAck, payload := some o.payload }
  have hw : ∀ sig, layout (synFields P o send nacks sig) = b.bytes sig := fun sig => by rw [packet_bytes]; rfl
  have hb : b.Ok E := ⟨hsend, ho.id, by show 0 < 2 ^ 32; decide, ho.ack, hn, hn', ho.resend, ho.delay, ho.mtu, by intro d hd; cases hd; exact P.parses⟩
  have hopt : ∀ sig : Bytes, sig.length = P.dest.key.sigLen → (b.options sig).length < 65536 := by
    intro sig hs
    have := P.size
    simp only [Builder.options, Builder.optionFields, b, putDest, if_true, List.length_append]
    have h1 : ∀ x, (putOpt x).length ≤ 2 := by intro x; cases x <;> simp [putOpt]
    have := h1 o.delay
    have := h1 o.mtu
    omega
  let z : Bytes := List.replicate P.dest.key.sigLen 0
  have hsig : P.syn o send nacks = b.bytes (P.sign (b.bytes z)) := by simp only [Peer.syn, hw]; rfl
  have hparse := parse_bytes hb (P.sign (b.bytes z)) (fun _ => ⟨P.dest, rfl, P.len _⟩) (hopt _ (P.len _))
  rw [hsig]
  have hbits := flags_bits b
  refine ⟨_, ⟨hparse, hbits.2.1, rfl, ?_⟩, rfl, rfl, rfl, rfl⟩
  obtain ⟨pre, hp⟩ : ∃ pre : Bytes, ∀ s : Bytes, s.length = P.dest.key.sigLen → b.bytes s = pre ++ s ++ b.payload.getD [] :=
    ⟨be 4 b.sendStreamId ++ be 4 b.recvStreamId ++ be 4 b.seq ++ be 4 b.ackThrough ++
      be 1 (b.nacks.getD []).length ++ ((b.nacks.getD []).map (be 4)).flatten ++ be 1 b.resendDelay ++ be 2 b.flags ++
      be 2 (b.optionFields.length + P.dest.key.sigLen) ++ b.optionFields,
      by intro s hl; simp [Builder.bytes, Builder.options, b, hl]⟩
  refine ⟨P.dest.key, P.sign (b.bytes z), pre, P.sign (b.bytes z), .inr ⟨rfl, rfl⟩, rfl, ?_, P.len _, ?_⟩
  · rw [hp _ (P.len _)]; rfl
  · have : pre ++ z ++ b.payload.getD [] = b.bytes z := (hp z (by simp [z])).symm
    show E.verify P.dest.key (pre ++ z ++ b.payload.getD []) _ = true
    rw [this]; exact P.ok _

/-! ## C286: streams open with peers of any implementation -/

/-- A `SYN` of any peer, with any options and data, opens a stream when a client waits for one; when none waits, the peer is answered, its data is kept, and the stream
opens when a client comes. -/
theorem C286_peer_opens_partial (E : Env) (P : Peer E) (o : Opening) (ho : o.Fits) (m : Mgr) (nacks : List Nat) (hh : HashOf nacks m.destination.hash) (hn : ∀ n ∈ nacks, n < 2 ^ 32)
    (ha : m.active o.id = none) (hp : m.pendIn o.id = none) (h0 : m.pendOut 0 = none) (hs : m.shut ≠ .requested) (room : Bool) (rnd : Nat) :
    (m.step E (.packet (P.syn o 0 nacks) room true rnd)).2 = [.opened P.dest.hash true m.nextUid o.id] ∧
    (m.run E [.packet (P.syn o 0 nacks) room false rnd, .accept o.id]).2 = [.send P.dest.hash (synAck m.destination o.id rnd), .opened P.dest.hash true m.nextUid o.id] ∧
    (m.step E (.packet (P.syn o 0 nacks) room false rnd)).1.pendIn o.id = some { dest := P.dest.hash, sendId := rnd, st := Stream.PendingStream.new o.payload } := by
  obtain ⟨p, h1, h2, h3, h4, h5⟩ := peer_signed P o ho 0 (by decide) nacks (by have := hh.1; omega) hn
  have hstep : ∀ sock, m.step E (.packet (P.syn o 0 nacks) room sock rnd) = (m.onInbound p P.dest sock rnd).getD (m, []) := by
    intro sock
    rw [step_syn E m _ room sock rnd p P.dest h1 (by rw [h3]; exact ha) (by rw [h3]; exact hp) hs, h2, h0]
  have hin := hh.1
  have hin2 := hh.2
  rw [← h4] at hin hin2
  refine ⟨?_, ?_, ?_⟩
  · rw [hstep]
    simp only [Mgr.onInbound, hin, hin2, ne_eq, not_true_eq_false, if_false, if_true, h3, Option.getD_some, Mgr.spawn]
  · simp only [Mgr.run, hstep]
    simp only [Mgr.onInbound, hin, hin2, ne_eq, not_true_eq_false, if_false, Bool.false_eq_true, h3, Option.getD_some]
    simp [Mgr.step, Mgr.accept, upd, Mgr.spawn]
  · rw [hstep]
    simp [Mgr.onInbound, hin, hin2, h3, h5, upd]

/-- The answer of any peer to the own `SYN` opens the stream, whatever it has in its NACK field, options and data. -/
theorem C286_peer_answers (E : Env) (P : Peer E) (o : Opening) (ho : o.Fits) (m : Mgr) (nacks : List Nat) (hn : nacks.length ≤ 255) (hn' : ∀ n ∈ nacks, n < 2 ^ 32)
    (id : Nat) (hid : id < 2 ^ 32) (ob : Outb) (hob : m.pendOut id = some ob) (ha : m.active o.id = none) (hp : m.pendIn o.id = none) (hs : m.shut ≠ .requested) (room sock : Bool) (rnd : Nat) :
    (m.step E (.packet (P.syn o id nacks) room sock rnd)).2 = [.opened ob.dest false m.nextUid o.id] := by
  obtain ⟨p, h1, h2, h3, h4, h5⟩ := peer_signed P o ho id hid nacks hn hn'
  rw [step_syn E m _ room sock rnd p P.dest h1 (by rw [h3]; exact ha) (by rw [h3]; exact hp) hs, h2, hob, h3]
  simp [Mgr.spawn]

/-- The fields of a packet that has just the flags `SYNCHRONIZE`, `SIGNATURE_INCLUDED` and `FROM_INCLUDED`, no data, and zero where it says nothing. -/
def plainSyn (d : Destination) (send recv : Nat) (nacks : List Nat) (sig : Bytes) : List Field :=
  streamPacket send recv 0 0 nacks 0 (1 + 8 + 32) [.raw d.serialized, .raw sig] []

/-- The own `SYN` and the own answer have the layout of the specification, the first with the hash of the addressee in the NACK field, both signed over themselves with
zeros in the place of the signature. -/
theorem C286_own_packets (d : Destination) (sign : Bytes → Bytes) (hl : ∀ m, (sign m).length = 64) (remote : Bytes) (hr : remote.length = 32) (id rnd : Nat) :
    (∃ nacks, HashOf nacks remote ∧
      (Mgr.syn d remote id).buildAndSign sign = some (layout (plainSyn d 0 id nacks (sign (layout (plainSyn d 0 id nacks (List.replicate 64 0))))))) ∧
    (synAck d id rnd).buildAndSign sign = some (layout (plainSyn d id rnd [] (sign (layout (plainSyn d id rnd [] (List.replicate 64 0)))))) := by
  obtain ⟨w1, w2, w3⟩ := words_spec 8 remote (by omega)
  refine ⟨⟨words 8 remote, ⟨w2, w1⟩, ?_⟩, ?_⟩
  · rw [signed_bytes _ rfl sign hl]
    have : ∀ sig, (Mgr.syn d remote id).bytes sig = layout (plainSyn d 0 id (words 8 remote) sig) := fun sig => by rw [packet_bytes]; rfl
    rw [this, this]
  · rw [signed_bytes _ rfl sign hl]
    have : ∀ sig, (synAck d id rnd).bytes sig = layout (plainSyn d id rnd [] sig) := fun sig => by rw [packet_bytes]; rfl
    rw [this, this]

/-- The code turns away peers that do not repeat the hash: a `SYN` that is right in every other respect, as implementations before 2023 send it, with an empty NACK
field, or any but eight numbers in it, has no effect at all. -/
theorem C286_older_peers_violated (E : Env) (P : Peer E) (o : Opening) (ho : o.Fits) (m : Mgr) (nacks : List Nat) (hn : nacks.length ≤ 255) (hn' : ∀ n ∈ nacks, n < 2 ^ 32) (h8 : nacks.length ≠ 8)
    (ha : m.active o.id = none) (hp : m.pendIn o.id = none) (h0 : m.pendOut 0 = none) (hs : m.shut ≠ .requested) (room sock : Bool) (rnd : Nat) :
    m.step E (.packet (P.syn o 0 nacks) room sock rnd) = (m, []) := by
  obtain ⟨p, h1, h2, h3, h4, h5⟩ := peer_signed P o ho 0 (by decide) nacks hn hn'
  rw [step_syn E m _ room sock rnd p P.dest h1 (by rw [h3]; exact ha) (by rw [h3]; exact hp) hs, h2, h0]
  simp [Mgr.onInbound, h4, h8]

/-! ## C287: only the peer ends a stream -/

/-- A packet by the specification that is neither signed nor says whom it is from. -/
def anonymous (send recv seq ack : Nat) (close reset : Bool) (payload : Bytes) : Bytes :=
  layout (streamPacket send recv seq ack [] 0 (streamFlags false close reset false false false false false false) (streamOptions none none none none) payload)

theorem anonymous_parse (E : Env) (send recv seq ack : Nat) (hsend : send < 2 ^ 32) (hrecv : recv < 2 ^ 32) (hseq : seq < 2 ^ 32) (hack : ack < 2 ^ 32) (close reset : Bool) (payload : Bytes) :
    ∃ p, Packet.parse E (anonymous send recv seq ack close reset payload) = some p ∧ p.recvStreamId = recv ∧ p.sendStreamId = send ∧ p.seq = seq ∧ p.payload = payload ∧
      p.flags.synchronize = false ∧ p.flags.close = close ∧ p.flags.reset = reset ∧ p.flags.signature = none ∧ p.flags.destination = none := by
  let b : Builder := {
    sendStreamId := send, recvStreamId := recv, seq, ackThrough := ack, close, reset, payload := some payload }
  have hb : b.Ok E := ⟨hsend, hrecv, hseq, hack, by simp [b], by simp [b], by simp [b], by simp [b], by simp [b], by simp [b]⟩
  have hw : anonymous send recv seq ack close reset payload = b.bytes [] := by rw [packet_bytes]; rfl
  have hparse := parse_bytes hb [] (by simp [b]) (by simp [Builder.options, Builder.optionFields, b, putOpt, putDest])
  have hbits := flags_bits b
  rw [hw]
  exact ⟨_, hparse, rfl, rfl, rfl, rfl, hbits.2.1, hbits.2.2.1, hbits.2.2.2.1, rfl, rfl⟩

/-- The code asks for no proof: whoever knows the number of a stream ends it. For every open stream and every running task behind it, a `RESET` without signature and
without sender is handed to the task, and the task is over. -/
theorem C287_reset_violated (E : Env) (m : Mgr) (id : Nat) (hid : id < 2 ^ 32) (a : Active) (ha : m.active id = some a) (t : Task) (he : t.ended = none) (hw : t.writing = none)
    (send : Nat) (hsend : send < 2 ^ 32) (sock : Bool) (rnd : Nat) (room : Bool) :
    (m.step E (.packet (anonymous send id 0 0 false true []) true sock rnd)).2 = [.deliver a.uid (anonymous send id 0 0 false true [])] ∧
      (t.step (.packet (Packet.parse E (anonymous send id 0 0 false true [])) room)).1.ended = some .reset := by
  obtain ⟨p, h1, h2, h3, h4, h5, h6, h7, h8, h9, h10⟩ := anonymous_parse E send id 0 0 hsend hid (by decide) (by decide) false true []
  have hi := C11_peek_agrees E _ p h1
  constructor
  · simp only [Mgr.step, Mgr.onPacket, hi, bind_some_val, h2, ha, if_true, Option.getD_some]
  · rw [h1]
    simp [Task.step, he, hw, Task.onPacket, h6, h8]

/-- The same with `CLOSE`: once nothing is missing, the stream ends as if the peer had closed it, and the client's own data is read no more. -/
theorem C287_close_violated (E : Env) (m : Mgr) (id : Nat) (hid : id < 2 ^ 32) (a : Active) (ha : m.active id = some a) (t : Task) (he : t.ended = none) (hw : t.writing = none)
    (hcr : t.closeRequested = false) (hm : t.inb.missing = []) (hr : t.inb.ready = [])
    (send : Nat) (hsend : send < 2 ^ 32) (sock : Bool) (rnd : Nat) (room room' : Bool) :
    (m.step E (.packet (anonymous send id 0 0 true false []) true sock rnd)).2 = [.deliver a.uid (anonymous send id 0 0 true false [])] ∧
      (t.step (.packet (Packet.parse E (anonymous send id 0 0 true false [])) room)).1.readClosed = true ∧
      (t.run [.packet (Packet.parse E (anonymous send id 0 0 true false [])) room, .ackTimer room']).1.ended = some .peerClosed := by
  obtain ⟨p, h1, h2, h3, h4, h5, h6, h7, h8, h9, h10⟩ := anonymous_parse E send id 0 0 hsend hid (by decide) (by decide) true false []
  have hi := C11_peek_agrees E _ p h1
  refine ⟨?_, ?_, ?_⟩
  · simp only [Mgr.step, Mgr.onPacket, hi, bind_some_val, h2, ha, if_true, Option.getD_some]
  · rw [h1]
    cases hn : p.flags.noAck <;> cases hc : t.writeClosed <;> simp [Task.step, he, hw, Task.onPacket, h5, h6, h7, h8, hn, hc, hcr, Task.pop, hr]
  · rw [h1]
    cases hn : p.flags.noAck <;> cases hc : t.writeClosed <;>
      simp [Task.run, Task.step, he, hw, Task.onPacket, h5, h6, h7, h8, hn, hc, hcr, Task.pop, hr, Stream.Inbound.canClose, hm]

/-- What protects a stream is its number: in every history, a task is given only packets that carry the number under which its stream was opened. -/
theorem C287_number_partial (E : Env) (loc : Destination) (ops : List Mgr.Op) (uid : Nat) (pkt : Bytes) (dest : Bytes) (inbound : Bool) (id : Nat)
    (ho : Out.opened dest inbound uid id ∈ ((Mgr.new loc).run E ops).2) (h : Out.deliver uid pkt ∈ ((Mgr.new loc).run E ops).2) :
    ∃ info, Packet.peek pkt = some info ∧ info.recvStreamId = id := by
  obtain ⟨d, b, i, info, h1, h2, h3, h4⟩ := C10_packets_reach_only_their_stream E loc ops uid pkt h
  exact ⟨info, h2, by rw [h3]; exact (h4 _ _ _ ho).2.2.symm⟩

/-! ## C288: a stream keeps to what its peer asks for -/

/-- A packet that differs from another only in what it asks of the sender: the largest packet it takes, and how long to wait (by the specification, more than 60000 ms
mean that nothing is to be sent until further notice). -/
def asks (p : Packet) (mtu delay : Option Nat) : Packet := { p with flags := { p.flags with maxPacketSize := mtu, requestedDelay := delay } }

/-- What the peer asks for is ignored: in every state, a packet has the same effect whatever it asks for. -/
theorem C288_ignored_violated (t : Task) (p : Packet) (mtu delay : Option Nat) (room : Bool) :
    t.step (.packet (some (asks p mtu delay)) room) = t.step (.packet (some p) room) := rfl

/-- So a peer that takes packets of at most `limit` bytes, or that takes none for now, is sent one with 1812 bytes of data as soon as the client has written them: the
packets the peer cannot take are sent again, and refused again, for ever (the specification has 1730 as the size unless the peer says otherwise). -/
theorem C288_too_large_violated (t : Task) (he : t.ended = none) (hw : t.writing = none) (hr : t.readClosed = false) (hcr : t.closeRequested = false) (hu : t.tx.unacked = [])
    (hp : t.tx.pending = []) (hwin : 1 ≤ t.tx.window) (hready : t.inb.ready = []) (p : Packet) (hplain : p.flags.flags = 0) (hpay : p.payload = []) (limit : Nat) (hl : limit < 1812)
    (delay : Option Nat) (room : Bool) (data : Bytes) (hd : 1812 ≤ data.length) (hd' : data.length ≤ 65535) :
    ∃ first : Bytes, first = data.take 1812 ∧ limit < first.length ∧
      Sent.numbered t.tx.next first ∈ (t.run [.packet (some (asks p (some limit) delay)) room, .read data []]).2 := by
  refine ⟨data.take 1812, rfl, by rw [List.length_take]; omega, ?_⟩
  have hs : p.flags.synchronize = false ∧ p.flags.reset = false ∧ p.flags.close = false := by simp [Flags.synchronize, Flags.reset, Flags.close, hplain, bit]
  obtain ⟨s1, s2, s3⟩ := hs
  have hemp : t.tx.handleAcks p.ackThrough p.nacks = t.tx := by
    unfold Stream.Tx.handleAcks
    split
    · rfl
    · cases ht : t.tx with
      | mk a b c d => rw [ht] at hu; simp only at hu; subst hu; rfl
  have h1 : t.step (.packet (some p) room) = (t, []) := by
    cases hwc : t.writeClosed <;>
      simp [Task.step, he, hw, Task.onPacket, s1, s2, s3, hpay, hemp, hcr, hwc, Task.pop, hready]
    all_goals (cases t; simp_all)
  have hne : data ≠ [] := by intro h; subst h; simp at hd
  have hch : ∀ n, data.length = n + 1 → Stream.chunksOf Stream.mtu (n + 1) data = data.take 1812 :: Stream.chunksOf Stream.mtu n (data.drop 1812) := by
    intro n hn
    simp [Stream.chunksOf, hne, Stream.mtu]
  obtain ⟨n, hn⟩ : ∃ n, data.length = n + 1 := ⟨data.length - 1, by omega⟩
  simp only [Task.run, C288_ignored_violated, h1, List.nil_append, List.append_nil]
  have hcond : (t.readClosed || !t.tx.pending.isEmpty || data.isEmpty || decide (data.length > Stream.readBufferSize)) = false := by
    simp [hr, hp, hne, Stream.readBufferSize]; omega
  simp only [Task.step, he, Option.isSome_none, Bool.false_eq_true, if_false, hcond]
  simp only [Stream.Tx.packetize, hn, hch n hn, Stream.number, Stream.Tx.sendNew]
  have : ¬ (t.tx.unacked.length ≥ t.tx.window) := by rw [hu]; simp; omega
  simp [this]

/-- What holds after every step: what is made is kept with its number and is small enough, and what is sent is what has been made under its number. -/
theorem step_sent {ops : List StreamTask.Op} {t : Task} (h : Keep ops t) (op : StreamTask.Op) :
    (∃ more : List Bytes, (t.step op).1.made = t.made ++ more ∧ ∀ c ∈ more, c.length ≤ 1812) ∧
      ∀ k c, Sent.numbered k c ∈ (t.step op).2 → 1 ≤ k ∧ (t.step op).1.made[k - 1]? = some c := by
  have same : ∀ (u : Task) (l : List Sent), u.made = t.made → (∀ k c, Sent.numbered k c ∉ l) →
      (∃ more : List Bytes, (u, l).1.made = t.made ++ more ∧ ∀ c ∈ more, c.length ≤ 1812) ∧ ∀ k c, Sent.numbered k c ∈ (u, l).2 → 1 ≤ k ∧ (u, l).1.made[k - 1]? = some c :=
    fun u l h1 h2 => ⟨⟨[], by simp [h1], by simp⟩, fun k c hc => absurd hc (h2 k c)⟩
  have hpop : ∀ u : Task, u.pop.made = u.made := by intro u; unfold Task.pop; split <;> rfl
  have hnum : ∀ (cs : List Bytes) (e : Stream.DataPkt), e ∈ Stream.number t.tx.next cs → 1 ≤ e.1 ∧ (t.made ++ cs)[e.1 - 1]? = some e.2 := by
    intro cs e he
    have hm := Stream.mem_number.mp he
    have hn := h.next
    refine ⟨by omega, ?_⟩
    rw [List.getElem?_append_right (by omega), ← hm.2]; congr 1; omega
  have hshut : ∀ (u : Task) (room : Bool), u.made = t.made → u.tx = t.tx →
      (∃ more : List Bytes, (u.shutdown room).1.made = t.made ++ more ∧ ∀ c ∈ more, c.length ≤ 1812) ∧
        ∀ k c, Sent.numbered k c ∈ (u.shutdown room).2 → 1 ≤ k ∧ (u.shutdown room).1.made[k - 1]? = some c := by
    intro u room h1 h2
    unfold Task.shutdown
    split
    · exact same u [] h1 (by simp)
    · refine ⟨⟨[[]], by simp [h1], by simp⟩, ?_⟩
      intro k c hc
      simp only [List.mem_map] at hc
      obtain ⟨e, he, hk⟩ := hc
      cases hk
      have := (Stream.sendNew_spec { u.tx with next := u.tx.next + 1 } [(u.tx.next, [])] [room]).2.2.2.2.2.2.2.2.2.1 e he
      rw [h2] at this
      rw [h1]
      exact hnum [[]] e this
  have hon : ∀ (p : Packet) (room : Bool), (t.onPacket p room).1.made = t.made ∧ ∀ k c, Sent.numbered k c ∉ (t.onPacket p room).2 := by
    intro p room
    have hsyn : ∀ k c, Sent.numbered k c ∉ (if p.flags.synchronize then [Sent.syn] else []) := by intro k c; split <;> simp
    unfold Task.onPacket
    split
    · exact ⟨rfl, by simp⟩
    simp only
    split
    · exact ⟨rfl, hsyn⟩
    have h1 : (if p.flags.close then { t with readClosed := true, inb := { t.inb with closeRequested := true }, ackTimer := true } else t).made = t.made := by split <;> rfl
    generalize (if p.flags.close then { t with readClosed := true, inb := { t.inb with closeRequested := true }, ackTimer := true } else t) = t1 at h1
    have h2 : (if p.flags.noAck then t1 else { t1 with tx := t1.tx.handleAcks p.ackThrough p.nacks }).made = t.made := by split <;> exact h1
    generalize (if p.flags.noAck then t1 else { t1 with tx := t1.tx.handleAcks p.ackThrough p.nacks }) = t2 at h2
    split
    · exact ⟨h2, hsyn⟩
    · exact ⟨h2, hsyn⟩
    · split
      · exact ⟨h2, hsyn⟩
      · exact ⟨h2, hsyn⟩
  unfold Task.step
  split
  · exact same t [] rfl (by simp)
  cases op with
  | packet p room =>
    simp only
    split
    · exact same t [] rfl (by simp)
    cases p with
    | none => exact same t [] rfl (by simp)
    | some p =>
      simp only
      split
      · exact same _ _ (hon p room).1 (hon p room).2
      · exact same _ _ ((hpop _).trans (hon p room).1) (hon p room).2
  | shutDown room =>
    simp only
    split
    · exact same t [] rfl (by simp)
    split
    · exact same _ [] rfl (by simp)
    · exact hshut _ room rfl rfl
  | dropped => simp only; split <;> exact same _ [] rfl (by simp)
  | pathGone => exact same _ [] rfl (by simp)
  | pollEmpty =>
    simp only
    split
    · exact same t [] rfl (by simp)
    · exact same _ [] (hpop t) (by simp)
  | written n room =>
    simp only
    split
    · exact same t [] rfl (by simp)
    split
    · exact hshut _ room rfl rfl
    · exact same _ [] rfl (by simp)
  | read data oks =>
    simp only
    split
    · exact same t [] rfl (by simp)
    refine ⟨⟨_, rfl, Stream.chunksOf_le Stream.mtu data.length data⟩, ?_⟩
    intro k c hc
    simp only [List.mem_map] at hc
    obtain ⟨e, he, hk⟩ := hc
    cases hk
    exact hnum _ e ((Stream.sendNew_spec { t.tx with next := t.tx.next + (Stream.chunksOf Stream.mtu data.length data).length }
      (Stream.number t.tx.next (Stream.chunksOf Stream.mtu data.length data)) oks).2.2.2.2.2.2.2.2.2.1 e he)
  | eof room =>
    simp only
    split
    · exact same t [] rfl (by simp)
    · exact hshut _ room rfl rfl
  | flush oks =>
    refine ⟨⟨[], by simp, by simp⟩, ?_⟩
    intro k c hc
    simp only [List.mem_map] at hc
    obtain ⟨e, he, hk⟩ := hc
    cases hk
    unfold Stream.Tx.flush at he
    simp only at he
    split at he
    · simp at he
    · exact h.pval e ((Stream.flushKeys_spec t.tx _ oks).2.2.2.2.2.2.2.2.2.1 e he)
  | resend x path oks =>
    refine ⟨⟨[], by simp, by simp⟩, ?_⟩
    intro k c hc
    simp only [List.mem_map] at hc
    obtain ⟨e, he, hk⟩ := hc
    cases hk
    unfold Stream.Tx.resend at he
    simp only at he
    split at he
    · simp at he
    · simp only [List.mem_map, List.mem_filter] at he
      obtain ⟨⟨e', i⟩, ⟨he, _⟩, rfl⟩ := he
      have := (List.mem_zipIdx he).2.2
      have hmem : e' ∈ (t.tx.unacked.take x).take t.tx.window := by rw [this]; exact List.getElem_mem _
      exact h.uval _ (List.mem_of_mem_take (List.mem_of_mem_take hmem))
  | ackTimer room =>
    simp only
    split
    · simp only
      split
      · exact same _ (if room then [Sent.plain t.inb.cur (t.inb.missing.take Stream.maxNacks) (t.inb.missing.length ≥ Stream.maxNacks) t.inb.canClose] else []) rfl (by intro k c; split <;> simp)
      · exact same _ (if room then [Sent.plain t.inb.cur (t.inb.missing.take Stream.maxNacks) (t.inb.missing.length ≥ Stream.maxNacks) t.inb.canClose] else []) rfl (by intro k c; split <;> simp)
    · exact same t [] rfl (by simp)

theorem run_sent : ∀ (rest ops : List StreamTask.Op) (t : Task), Keep ops t →
    (∃ more : List Bytes, (t.run rest).1.made = t.made ++ more ∧ ∀ c ∈ more, c.length ≤ 1812) ∧
      ∀ k c, Sent.numbered k c ∈ (t.run rest).2 → 1 ≤ k ∧ (t.run rest).1.made[k - 1]? = some c
  | [], ops, t, _ => ⟨⟨[], by simp [Task.run], by simp⟩, by simp [Task.run]⟩
  | op :: rest, ops, t, h => by
    obtain ⟨⟨m1, e1, l1⟩, s1⟩ := step_sent h op
    obtain ⟨⟨m2, e2, l2⟩, s2⟩ := run_sent rest _ _ (h.step op)
    simp only [Task.run]
    refine ⟨⟨m1 ++ m2, by rw [e2, e1, List.append_assoc], ?_⟩, ?_⟩
    · intro c hc
      rcases List.mem_append.mp hc with hc | hc
      · exact l1 c hc
      · exact l2 c hc
    · intro k c hc
      rcases List.mem_append.mp hc with hc | hc
      · refine ⟨(s1 k c hc).1, ?_⟩
        rw [e2]
        exact Stream.getElem?_append_some (s1 k c hc).2
      · exact s2 k c hc

/-- What holds of every stream: no packet has more than 1812 bytes of data, and all packets that are sent under a number, at whatever time, have the same data. -/
theorem C288_sizes_partial (n : Nat) (initial : Option Bytes) (ops : List StreamTask.Op) :
    (∀ k c, Sent.numbered k c ∈ ((Task.new n initial).run ops).2 → c.length ≤ 1812) ∧
    (∀ k c c', Sent.numbered k c ∈ ((Task.new n initial).run ops).2 → Sent.numbered k c' ∈ ((Task.new n initial).run ops).2 → c = c') := by
  obtain ⟨⟨more, h1, h2⟩, h3⟩ := run_sent ops [] (Task.new n initial) (Keep.new n initial)
  refine ⟨fun k c hc => ?_, fun k c c' hc hc' => ?_⟩
  · have := (h3 k c hc).2
    rw [h1] at this
    exact h2 c (by simpa [Task.new] using List.mem_of_getElem? this)
  · have a := (h3 k c hc).2
    have b := (h3 k c' hc').2
    rw [a] at b
    exact Option.some.inj b

/-! ## Non-vacuity -/

/-- A peer whose destination and signatures are known. -/
def toyPeer : Peer toyEnv where
  dest := toyDest
  sign := fun _ => List.replicate 64 5
  parses := fun r => C26_new_destination_roundtrip toyEnv _ _ r (by decide) (by decide +kernel) rfl
  size := by decide +kernel
  len := fun _ => by decide +kernel
  ok := fun _ => rfl

/-- Its first packet: with data, a size and a delay. -/
def toyOpening : Opening := { id := 77, delay := some 60001, mtu := some 1200, payload := [1, 2, 3] }

theorem toyFits : toyOpening.Fits := ⟨by decide, by decide, by decide, by intro d hd; cases hd; decide, by intro d hd; cases hd; decide⟩

/-- The eight numbers of the hash of the own destination. -/
def toyNacks : List Nat := List.replicate 8 (9 * 2 ^ 24 + 9 * 2 ^ 16 + 9 * 2 ^ 8 + 9)

example : HashOf toyNacks (Mgr.new toyDest).destination.hash ∧ (∀ n ∈ toyNacks, n < 2 ^ 32) := by unfold HashOf; decide +kernel

example := C286_peer_opens_partial toyEnv toyPeer toyOpening toyFits (Mgr.new toyDest) toyNacks (by unfold HashOf; decide +kernel) (by decide +kernel) rfl rfl rfl (by decide) true 5

example := C286_older_peers_violated toyEnv toyPeer toyOpening toyFits (Mgr.new toyDest) [] (by decide) (by simp) (by decide) rfl rfl rfl (by decide) true true 5

-- An own stream waits for its answer, and the peer answers it.
example : ∃ ob, ((Mgr.new toyDest).step toyEnv (.create (List.replicate 32 3) 11)).1.pendOut 11 = some ob := ⟨_, rfl⟩

-- The hypotheses of C287 and C288: a stream that has just begun.
example (n : Nat) : (Task.new n none).ended = none ∧ (Task.new n none).writing = none ∧ (Task.new n none).readClosed = false ∧ (Task.new n none).closeRequested = false ∧
    (Task.new n none).tx.unacked = [] ∧ (Task.new n none).tx.pending = [] ∧ 1 ≤ (Task.new n none).tx.window ∧ (Task.new n none).inb.ready = [] ∧ (Task.new n none).inb.missing = [] :=
  ⟨rfl, rfl, rfl, rfl, rfl, rfl, Nat.le_refl 1, rfl, rfl⟩

-- Two packets under one number: sent, and sent again.
example : ((Task.new 0 none).run [.read [1, 2] [], .resend 1 true []]).2 = [.numbered 1 [1, 2], .numbered 1 [1, 2]] := by decide +kernel

-- An open stream to which anyone can send.
example : ((Mgr.new toyDest).step toyEnv (.packet (toyPeer.syn toyOpening 0 toyNacks) true true 5)).1.active 77 = some ⟨toyDest.hash, 0⟩ := by decide +kernel

end Emissary.StreamPeer
