import Verif.Props.StreamManager
/-!
# Opening, unregistering and shutting down streams (C63, C64, C65, C66, C67)
-/
namespace Emissary.Mgr
open Emissary Emissary.Prim Emissary.Pkt

/-- Someone who owns a destination: an Ed25519 destination as the code creates it, and a signing function whose
64-byte signatures verify under the destination's key. -/
structure Owner (E : Env) where
  dest : Destination
  sign : Bytes → Bytes
  ed : dest.key.sigLen = 64
  parses : ∀ r, Destination.parse E (dest.serialized ++ r) = some (dest, r)
  size : dest.serialized.length < 60000
  hash : dest.hash.length = 32
  len : ∀ m, (sign m).length = 64
  ok : ∀ m, E.verify dest.key m (sign m) = true

/-- Owners exist: any new Ed25519 destination with a correct signature scheme. -/
example (E : Env) (key padding : Bytes) (hk : key.length = 32) (hp : padding.length = 352)
    (hv : E.keyOk (.ed25519 key) = true) (hh : ∀ b, (E.sha256 b).length = 32) (sign : Bytes → Bytes)
    (hl : ∀ m, (sign m).length = 64) (hok : ∀ m, E.verify (.ed25519 key) m (sign m) = true) :
    ∃ o : Owner E, o.dest = Destination.new E key padding :=
  ⟨⟨Destination.new E key padding, sign, rfl, fun r => C26_new_destination_roundtrip E key padding r hk hp hv,
    by simp [Destination.new, hk, hp], hh _, hl, hok⟩, rfl⟩

theorem words_spec (n : Nat) (bs : Bytes) (h : bs.length = 4 * n) :
    ((words n bs).map (be 4)).flatten = bs ∧ (words n bs).length = n ∧ ∀ w ∈ words n bs, w < 2 ^ 32 := by
  induction n generalizing bs with
  | zero => simp at h; simp [words, h]
  | succ n ih =>
    have hl : (bs.take 4).length = 4 := by simp; omega
    obtain ⟨h1, h2, h3⟩ := ih (bs.drop 4) (by simp; omega)
    have hb : be 4 (unbe (bs.take 4)) = bs.take 4 := by
      have := be_unbe (bs.take 4); rwa [hl] at this
    have hlt : unbe (bs.take 4) < 2 ^ 32 := by
      have := unbe_lt (bs.take 4); rw [hl] at this; omega
    refine ⟨?_, by simp [words, h2], ?_⟩
    · simp only [words, List.map_cons, List.flatten_cons, hb, h1, List.take_append_drop]
    · intro w hw
      simp only [words, List.mem_cons] at hw
      rcases hw with rfl | hw
      · exact hlt
      · exact h3 w hw

/-- A signed SYN made with the packet builder satisfies the specification of a signed SYN. -/
theorem builder_signed (E : Env) (o : Owner E) (b : Builder) (hb : b.Ok E) (hs : b.signature = true)
    (hy : b.synchronize = true) (hd : b.destination = some o.dest)
    (ho : (b.options (List.replicate 64 0)).length < 65536) :
    ∃ out p, b.buildAndSign o.sign = some out ∧ SignedSyn E out p o.dest ∧ p.sendStreamId = b.sendStreamId ∧
      p.recvStreamId = b.recvStreamId ∧ p.nacks = b.nacks.getD [] ∧ p.payload = b.payload.getD [] ∧
      p.seq = b.seq ∧ p.flags.reset = b.reset ∧ p.flags.close = b.close := by
  obtain ⟨out, p, h1, h2, h3, h4, h5⟩ := C11_signed_packet_roundtrip E b hb hs o.sign o.len o.dest hd o.ed ho
  have hbits := flags_bits b
  refine ⟨out, p, h1, ⟨h2, ?_, h4, ?_⟩, ?_⟩
  · rw [h5]; exact hbits.2.1.trans hy
  · obtain ⟨pre, hp⟩ : ∃ pre : Bytes, ∀ s : Bytes, s.length = 64 → b.bytes s = pre ++ s ++ b.payload.getD [] :=
      ⟨be 4 b.sendStreamId ++ be 4 b.recvStreamId ++ be 4 b.seq ++ be 4 b.ackThrough ++
      be 1 (b.nacks.getD []).length ++ ((b.nacks.getD []).map (be 4)).flatten ++ be 1 b.resendDelay ++ be 2 b.flags ++
      be 2 (b.optionFields.length + 64) ++ b.optionFields,
      by intro s hl; simp [Builder.bytes, Builder.options, hs, hl]⟩
    have h1' := signed_bytes b hs o.sign o.len
    rw [h1] at h1'
    simp only [Option.some.injEq] at h1'
    have hpay : p.payload = b.payload.getD [] := by rw [h5]; rfl
    refine ⟨o.dest.key, o.sign (b.bytes (List.replicate 64 0)), pre, o.sign (b.bytes (List.replicate 64 0)), ?_, h3, ?_,
      ?_, ?_⟩
    · right; rw [h5]; exact ⟨rfl, rfl⟩
    · rw [hpay, h1']; exact hp _ (o.len _)
    · rw [o.len, o.ed]
    · rw [o.ed, hpay, ← hp _ (by simp)]; exact o.ok _
  · rw [h5]; exact ⟨rfl, rfl, rfl, rfl, rfl, hbits.2.2.2.1, hbits.2.2.1⟩

/-- The SYN `create_stream` sends. -/
theorem syn_signed (E : Env) (o : Owner E) (remote : Bytes) (hr : remote.length = 32) (id : Nat) (hid : id < 2 ^ 32) :
    ∃ out p, (syn o.dest remote id).buildAndSign o.sign = some out ∧ SignedSyn E out p o.dest ∧ p.sendStreamId = 0 ∧
      p.recvStreamId = id ∧ AddressedTo p remote ∧ p.payload = [] ∧ p.seq = 0 ∧ p.flags.reset = false ∧
      p.flags.close = false := by
  obtain ⟨w1, w2, w3⟩ := words_spec 8 remote (by omega)
  obtain ⟨out, p, h1, h2, h3, h4, h5, h6, h7, h8, h9⟩ := builder_signed E o (syn o.dest remote id)
    (by
      constructor <;> simp [syn, w2]
      · exact hid
      · intro n hn; have := w3 n hn; omega
      · exact o.parses)
    rfl rfl rfl (by
      have := o.size
      simp [Builder.options, Builder.optionFields, syn, putOpt, putDest]; omega)
  exact ⟨out, p, h1, h2, h3, h4, ⟨by rw [h5]; exact w2, by rw [h5]; exact w1⟩, h6, h7, h8, h9⟩

/-- The SYN-ACK for a pending stream. -/
theorem synAck_signed (E : Env) (o : Owner E) (recvId sendId : Nat) (h1 : recvId < 2 ^ 32) (h2 : sendId < 2 ^ 32) :
    ∃ out p, (synAck o.dest recvId sendId).buildAndSign o.sign = some out ∧ SignedSyn E out p o.dest ∧
      p.sendStreamId = recvId ∧ p.recvStreamId = sendId := by
  obtain ⟨out, p, a1, a2, a3, a4, _⟩ := builder_signed E o (synAck o.dest recvId sendId)
    (by
      constructor <;> simp [synAck]
      · exact h1
      · exact h2
      · exact o.parses)
    rfl rfl rfl (by
      have := o.size
      simp [Builder.options, Builder.optionFields, synAck, putOpt, putDest]; omega)
  exact ⟨out, p, a1, a2, a3, a4⟩

/-- What a signed SYN does when its id is free. -/
theorem step_syn (E : Env) (m : Mgr) (pkt : Bytes) (room sock : Bool) (rnd : Nat) (p : Packet) (d : Destination)
    (h : SignedSyn E pkt p d) (ha : m.active p.recvStreamId = none) (hp : m.pendIn p.recvStreamId = none)
    (hs : m.shut ≠ .requested) :
    m.step E (.packet pkt room sock rnd) = (match m.pendOut p.sendStreamId with
      | some o => Mgr.spawn { m with pendOut := upd m.pendOut p.sendStreamId none } p.recvStreamId o.dest false
      | none => (m.onInbound p d sock rnd).getD (m, [])) := by
  have hi := C11_peek_agrees E pkt p h.parse
  have hv := (verifySyn_iff h.parse h.syn).mpr h
  simp only [Mgr.step, Mgr.onPacket, hi, bind_some_val, ha, hp]
  rw [if_pos ⟨h.syn, hs⟩]
  simp only [Mgr.onSyn, h.parse, bind_some_val, hv]
  cases m.pendOut p.sendStreamId <;> rfl

/-! ## C65: the handshake completes -/

/-- C65: the SYN of one endpoint is accepted by the other: with a listener socket the inbound stream opens, for the
sender's destination and under the sender's id. -/
theorem C65_syn_accepted (E : Env) (A : Owner E) (m : Mgr) (hm : m.destination.hash.length = 32) (id : Nat)
    (hid : id < 2 ^ 32) (ha : m.active id = none) (hp : m.pendIn id = none) (h0 : m.pendOut 0 = none)
    (hs : m.shut ≠ .requested) (room : Bool) (rnd : Nat) :
    ∃ out, (syn A.dest m.destination.hash id).buildAndSign A.sign = some out ∧
      (m.step E (.packet out room true rnd)).2 = [.opened A.dest.hash true m.nextUid id] ∧
      (m.step E (.packet out room true rnd)).1.active id = some ⟨A.dest.hash, m.nextUid⟩ := by
  obtain ⟨out, p, h1, h2, h3, h4, h5, h6, h7, h8, h9⟩ := syn_signed E A m.destination.hash hm id hid
  refine ⟨out, h1, ?_⟩
  rw [step_syn E m out room true rnd p A.dest h2 (by rw [h4]; exact ha) (by rw [h4]; exact hp) hs, h3, h0]
  simp only [Mgr.onInbound, h5.1, h5.2, ne_eq, not_true_eq_false, if_false, if_true, h4, Option.getD_some, Mgr.spawn]
  exact ⟨trivial, by simp [upd]⟩

/-- C65: without a listener the stream waits, a SYN-ACK is sent, and when a listener arrives the stream opens. -/
theorem C65_syn_waits_for_listener (E : Env) (A : Owner E) (m : Mgr) (hm : m.destination.hash.length = 32) (id : Nat)
    (hid : id < 2 ^ 32) (ha : m.active id = none) (hp : m.pendIn id = none) (h0 : m.pendOut 0 = none)
    (hs : m.shut ≠ .requested) (room : Bool) (rnd : Nat) :
    ∃ out, (syn A.dest m.destination.hash id).buildAndSign A.sign = some out ∧
      (m.run E [.packet out room false rnd, .accept id]).2 =
        [.send A.dest.hash (synAck m.destination id rnd), .opened A.dest.hash true m.nextUid id] := by
  obtain ⟨out, p, h1, h2, h3, h4, h5, h6, h7, h8, h9⟩ := syn_signed E A m.destination.hash hm id hid
  refine ⟨out, h1, ?_⟩
  have := step_syn E m out room false rnd p A.dest h2 (by rw [h4]; exact ha) (by rw [h4]; exact hp) hs
  rw [h3, h0] at this
  simp only [Mgr.onInbound, h5.1, h5.2, ne_eq, not_true_eq_false, if_false, Bool.false_eq_true, h4,
    Option.getD_some] at this
  simp only [Mgr.run, this]
  simp [Mgr.step, Mgr.accept, upd, Mgr.spawn]

/-- C65: the SYN-ACK completes the outbound stream of the endpoint that sent the SYN: it opens for the destination
that was asked for, and the pending connection is gone. -/
theorem C65_syn_ack_completes (E : Env) (B : Owner E) (m : Mgr) (id rnd : Nat) (hid : id < 2 ^ 32) (hr : rnd < 2 ^ 32)
    (o : Outb) (ho : m.pendOut id = some o) (ha : m.active rnd = none) (hp : m.pendIn rnd = none)
    (hs : m.shut ≠ .requested) (room sock : Bool) (rnd' : Nat) :
    ∃ out, (synAck B.dest id rnd).buildAndSign B.sign = some out ∧
      (m.step E (.packet out room sock rnd')).2 = [.opened o.dest false m.nextUid rnd] ∧
      (m.step E (.packet out room sock rnd')).1.pendOut id = none := by
  obtain ⟨out, p, h1, h2, h3, h4⟩ := synAck_signed E B id rnd hid hr
  refine ⟨out, h1, ?_⟩
  rw [step_syn E m out room sock rnd' p B.dest h2 (by rw [h4]; exact ha) (by rw [h4]; exact hp) hs, h3, ho, h4]
  simp [Mgr.spawn, upd]

/-! ## C63: outbound streams -/

/-- C63, the part that holds: in every history, an outbound stream opens only for a destination a connection was
requested to, on receipt of a signed SYN that carries the id of that request. -/
theorem C63_outbound_streams_were_requested_partial (E : Env) (loc : Destination) (ops : List Op) (dest : Bytes)
    (uid id : Nat) (h : Out.opened dest false uid id ∈ ((Mgr.new loc).run E ops).2) :
    ∃ sid pkt room sock rnd p d', Op.create dest sid ∈ ops ∧ Op.packet pkt room sock rnd ∈ ops ∧
      SignedSyn E pkt p d' ∧ p.sendStreamId = sid ∧ p.recvStreamId = id :=
  (inv_run E loc ops).outb dest uid id h

/-- C63 is violated: whoever answers first completes the connection. For every destination `remote` a connection was
requested to and every *other* destination `M`, a SYN signed by `M` that carries the request's id opens the stream, and
the client is told it is connected to `remote`. -/
theorem C63_any_destination_completes_connection_violated (E : Env) (loc : Destination) (remote : Bytes) (M : Owner E)
    (_ : M.dest.hash ≠ remote) (sid x : Nat) (h1 : sid < 2 ^ 32) (h2 : x < 2 ^ 32) (room sock : Bool) (rnd : Nat) :
    ∃ out, (synAck M.dest sid x).buildAndSign M.sign = some out ∧
      ((Mgr.new loc).run E [.create remote sid, .packet out room sock rnd]).2 =
        [.send remote (syn loc remote sid), .opened remote false 0 x] := by
  obtain ⟨out, ho, h3, _⟩ := C65_syn_ack_completes E M ((Mgr.new loc).createStream remote sid).1 sid x h1 h2
    ⟨remote, 1⟩ (by simp [Mgr.createStream, Mgr.new, upd]) (by simp [Mgr.createStream, Mgr.new])
    (by simp [Mgr.createStream, Mgr.new]) (by simp [Mgr.createStream, Mgr.new]) room sock rnd
  refine ⟨out, ho, ?_⟩
  have e : ((Mgr.new loc).step E (.create remote sid)) = (Mgr.new loc).createStream remote sid := rfl
  simp only [Mgr.run, e, h3]
  simp [Mgr.createStream, Mgr.new]

/-! ## C64: streams are unregistered only for their own sake -/

/-- C64, the part that holds: handling a packet, creating, accepting, pruning, timers and shutdown never unregister an
active stream. -/
theorem C64_active_streams_kept_partial (E : Env) (m : Mgr) (op : Op) (id : Nat) (a : Active)
    (ha : m.active id = some a) (hp : ∀ s, m.pendIn id ≠ some s)
    (h1 : ∀ d, op ≠ .removeSession d) (h2 : ∀ i u, op ≠ .finished i u) :
    (m.step E op).1.active id = some a := by
  cases op with
  | packet b room sock rnd =>
    simp only [Mgr.step]
    cases hs : m.onPacket E b room sock rnd with
    | none => exact ha
    | some r =>
      obtain ⟨m', os⟩ := r
      simp only [Option.getD_some]
      unfold Mgr.onPacket at hs
      unbind hs with info ei
      split at hs
      · simp only [Option.some.injEq, Prod.mk.injEq] at hs; rw [← hs.1]; exact ha
      · rename_i hna
        have hne : ∀ p, Packet.parse E b = some p → id ≠ p.recvStreamId := by
          intro p hp' he
          rw [← (peek_parse hp' ei).1] at he
          rw [he] at ha; rw [ha] at hna; cases hna
        split at hs
        · simp only [Option.some.injEq] at hs
          unfold Mgr.onPending at hs
          split at hs
          · simp only [Prod.mk.injEq] at hs; rw [← hs.1]; exact ha
          · simp only at hs
            split at hs <;> simp only [Prod.mk.injEq] at hs <;> rw [← hs.1] <;> exact ha
        · split at hs
          · unfold Mgr.onSyn at hs
            unbind hs with p ep
            unbind hs with d ed
            have hne := hne p ep
            split at hs
            · simp only [Mgr.spawn, Option.some.injEq, Prod.mk.injEq] at hs
              rw [← hs.1]; simp [upd, hne, ha]
            · unfold Mgr.onInbound at hs
              split at hs
              · cases hs
              split at hs
              · cases hs
              split at hs
              · simp only [Mgr.spawn, Option.some.injEq, Prod.mk.injEq] at hs
                rw [← hs.1]; simp [upd, hne, ha]
              · simp only [Option.some.injEq, Prod.mk.injEq] at hs
                rw [← hs.1]; exact ha
          · unbind hs with p ep
            simp only [Option.pure_def, Option.some.injEq, Prod.mk.injEq] at hs
            rw [← hs.1]; exact ha
  | create r i => simp only [Mgr.step, Mgr.createStream]; split <;> exact ha
  | removeSession d => exact absurd rfl (h1 d)
  | accept i =>
    simp only [Mgr.step, Mgr.accept]
    split
    · exact ha
    · rename_i s hs
      have : id ≠ i := by intro he; subst he; exact hp s hs
      simp [Mgr.spawn, upd, this, ha]
  | finished i u => exact absurd rfl (h2 i u)
  | synTimer i path =>
    simp only [Mgr.step, Mgr.synTimer]
    split
    · exact ha
    · split
      · split <;> exact ha
      · exact ha
  | prune s => exact ha
  | shutdown => exact ha
  | shutTimer => simp only [Mgr.step, Mgr.shutTimer]; split <;> exact ha

/-- C64 is violated by `remove_session`: ids of closed streams are kept under their destination. `A`'s stream with id
`x` opens and closes, `B` opens a stream with the same id, and then removing `A`'s session unregisters `B`'s stream
although it is still running and `B`'s session was not removed. -/
theorem C64_remove_session_drops_other_stream_violated (E : Env) (A B : Owner E) (loc : Destination)
    (hl : loc.hash.length = 32) (x : Nat) (hx : x < 2 ^ 32) (hab : A.dest.hash ≠ B.dest.hash) :
    ∃ pa pb, (syn A.dest loc.hash x).buildAndSign A.sign = some pa ∧ (syn B.dest loc.hash x).buildAndSign B.sign = some pb ∧
      let ops := [Op.packet pa true true 0, .finished x 0, .packet pb true true 0]
      let m := ((Mgr.new loc).run E ops).1
      m.active x = some ⟨B.dest.hash, 1⟩ ∧ (x, 1) ∈ m.running ∧
      (m.removeSession A.dest.hash).active x = none ∧ (x, 1) ∈ (m.removeSession A.dest.hash).running := by
  obtain ⟨pa, qa, a1, a2, a3, a4, a5, _⟩ := syn_signed E A loc.hash hl x hx
  obtain ⟨pb, qb, b1, b2, b3, b4, b5, _⟩ := syn_signed E B loc.hash hl x hx
  refine ⟨pa, pb, a1, b1, ?_⟩
  have s1 := step_syn E (Mgr.new loc) pa true true 0 qa A.dest a2 rfl rfl (by simp [Mgr.new])
  simp only [a3, a4, Mgr.new, Mgr.onInbound, a5.1, a5.2, ne_eq, not_true_eq_false, if_false, if_true, Option.getD_some,
    Mgr.spawn, List.nil_append, Nat.zero_add] at s1
  simp only [Mgr.run, Mgr.new, s1]
  simp only [Mgr.step, Mgr.finished, List.mem_singleton, if_true, upd, List.erase_cons_head, List.isEmpty_nil]
  rw [if_neg (by simp)]
  simp only
  have s2 := step_syn E
    { destination := loc, active := upd (upd (fun _ => none) x (some ⟨A.dest.hash, 0⟩)) x none,
      pendIn := fun _ => none, pendOut := fun _ => none,
      destStreams := upd (fun _ => []) A.dest.hash [x], running := [], nextUid := 1, shut := .idle }
    pb true true 0 qb B.dest b2 (by simp [b4, upd]) rfl (by simp)
  simp only [b3, b4, Mgr.onInbound, b5.1, b5.2, ne_eq, not_true_eq_false, if_false, if_true, Option.getD_some,
    Mgr.spawn, List.nil_append, Mgr.step] at s2
  rw [s2]
  simp [upd, Mgr.removeSession, hab]

/-- C64 is violated by late completions: `A`'s session is removed while its stream is still winding down, `B` opens a
stream with the same id, and when `A`'s old stream finishes, `B`'s new stream is unregistered and reported closed. -/
theorem C64_late_completion_drops_new_stream_violated (E : Env) (A B : Owner E) (loc : Destination)
    (hl : loc.hash.length = 32) (x : Nat) (hx : x < 2 ^ 32) (hab : A.dest.hash ≠ B.dest.hash) :
    ∃ pa pb, (syn A.dest loc.hash x).buildAndSign A.sign = some pa ∧ (syn B.dest loc.hash x).buildAndSign B.sign = some pb ∧
      let ops := [Op.packet pa true true 0, .removeSession A.dest.hash, .packet pb true true 0]
      let m := ((Mgr.new loc).run E ops).1
      m.active x = some ⟨B.dest.hash, 1⟩ ∧ (x, 1) ∈ (m.finished x 0).1.running ∧
      (m.finished x 0).1.active x = none ∧ (m.finished x 0).2 = [.closed B.dest.hash] := by
  obtain ⟨pa, qa, a1, a2, a3, a4, a5, _⟩ := syn_signed E A loc.hash hl x hx
  obtain ⟨pb, qb, b1, b2, b3, b4, b5, _⟩ := syn_signed E B loc.hash hl x hx
  refine ⟨pa, pb, a1, b1, ?_⟩
  have s1 := step_syn E (Mgr.new loc) pa true true 0 qa A.dest a2 rfl rfl (by simp [Mgr.new])
  simp only [a3, a4, Mgr.new, Mgr.onInbound, a5.1, a5.2, ne_eq, not_true_eq_false, if_false, if_true, Option.getD_some,
    Mgr.spawn, List.nil_append, Nat.zero_add] at s1
  simp only [Mgr.run, Mgr.new, s1]
  have s2 := step_syn E (Mgr.removeSession
    { destination := loc, active := upd (fun _ => none) x (some ⟨A.dest.hash, 0⟩),
      pendIn := fun _ => none, pendOut := fun _ => none,
      destStreams := upd (fun _ => []) A.dest.hash [x], running := [(x, 0)], nextUid := 1, shut := .idle } A.dest.hash)
    pb true true 0 qb B.dest b2 (by simp [b4, Mgr.removeSession, upd]) (by simp [Mgr.removeSession])
    (by simp [Mgr.removeSession])
  simp only [b3, b4, Mgr.onInbound, b5.1, b5.2, ne_eq, not_true_eq_false, if_false, if_true, Option.getD_some,
    Mgr.spawn, Mgr.step, Mgr.removeSession, ite_self] at s2
  simp only [Mgr.step, Mgr.removeSession, ite_self]
  rw [s2]
  simp [upd, Mgr.finished]

/-! ## C66: shutting down -/

/-- C66: while shutting down, no packet opens a stream or makes one pending. -/
theorem C66_no_new_streams_while_shutting_down (E : Env) (m : Mgr) (pkt : Bytes) (room sock : Bool) (rnd : Nat)
    (h : m.shut = .requested) :
    (∀ d b u i, Out.opened d b u i ∉ (m.step E (.packet pkt room sock rnd)).2) ∧
    ∀ id s, (m.step E (.packet pkt room sock rnd)).1.pendIn id = some s → ∃ s', m.pendIn id = some s' := by
  simp only [Mgr.step]
  cases hs : m.onPacket E pkt room sock rnd with
  | none => exact ⟨by simp, fun id s hx => ⟨s, hx⟩⟩
  | some r =>
    obtain ⟨m', os⟩ := r
    simp only [Option.getD_some]
    unfold Mgr.onPacket at hs
    unbind hs with info ei
    split at hs
    · simp only [Option.some.injEq, Prod.mk.injEq] at hs
      obtain ⟨rfl, rfl⟩ := hs
      refine ⟨?_, fun id s hx => ⟨s, hx⟩⟩
      intro d b u i; cases room <;> simp
    · split at hs
      · rename_i s hps
        simp only [Option.some.injEq] at hs
        unfold Mgr.onPending at hs
        split at hs
        · simp only [Prod.mk.injEq] at hs
          obtain ⟨rfl, rfl⟩ := hs
          exact ⟨by simp, fun id s hx => ⟨s, hx⟩⟩
        · simp only at hs
          split at hs <;> simp only [Prod.mk.injEq] at hs <;> obtain ⟨rfl, rfl⟩ := hs <;>
          · refine ⟨by simp, fun id s' hx => ?_⟩
            simp only [Mgr.dropPending, upd] at hx
            split at hx
            · rename_i he; subst he; exact ⟨s, hps⟩
            · exact ⟨s', hx⟩
      · rw [if_neg (by simp [h])] at hs
        unbind hs with p ep
        simp only [Option.pure_def, Option.some.injEq, Prod.mk.injEq] at hs
        obtain ⟨rfl, rfl⟩ := hs
        exact ⟨by simp, fun id s hx => ⟨s, hx⟩⟩

/-- C66: once shutdown is requested and every running stream is registered, the streams finishing in any order end the
manager: the shutdown event is emitted when the last one finishes, and not before. -/
theorem C66_shutdown_when_last_stream_finishes_partial (E : Env) (m : Mgr) (h : m.shut = .requested)
    (order : List (Nat × Nat)) (hne : order ≠ []) (hperm : m.running.Perm order) (hnd : (order.map (·.1)).Nodup)
    (hact : ∀ x ∈ order, ∃ a, m.active x.1 = some a ∧ a.uid = x.2) :
    ∃ dests : List Bytes, dests.length = order.length ∧
      (m.run E (order.map (fun x => .finished x.1 x.2))).2 = dests.map Out.closed ++ [.shutDown] := by
  induction order generalizing m with
  | nil => exact absurd rfl hne
  | cons x rest ih =>
    obtain ⟨id, uid⟩ := x
    obtain ⟨a, ha, hu⟩ := hact (id, uid) (by simp)
    have hmem : (id, uid) ∈ m.running := hperm.mem_iff.mpr (by simp)
    have hperm' : (m.running.erase (id, uid)).Perm rest := by
      have := hperm.erase (id, uid)
      simpa using this
    simp only [List.map_cons, List.nodup_cons] at hnd
    simp only [List.map_cons, Mgr.run]
    simp only [Mgr.step, Mgr.finished, hmem, if_true, ha, h]
    cases rest with
    | nil =>
      have he : m.running.erase (id, uid) = [] := hperm'.eq_nil
      simp only [he, List.isEmpty_nil]
      exact ⟨[a.dest], rfl, by simp [Mgr.run]⟩
    | cons y t =>
      have he : (m.running.erase (id, uid)).isEmpty = false := by
        rw [List.isEmpty_eq_false_iff]; intro h0; rw [h0] at hperm'; have := hperm'.length_eq; simp at this
      simp only [he, Bool.false_eq_true, false_and, if_false]
      obtain ⟨ds, h1, h2⟩ := ih { m with running := m.running.erase (id, uid), active := upd m.active id none } h
        (by simp) hperm' hnd.2 (by
          intro z hz
          obtain ⟨b, hb, hbu⟩ := hact z (List.mem_cons_of_mem _ hz)
          have : z.1 ≠ id := by
            intro he; apply hnd.1; rw [← he]; exact List.mem_map_of_mem hz
          exact ⟨b, by simp [upd, this, hb], hbu⟩)
      refine ⟨a.dest :: ds, by simp [h1], ?_⟩
      rw [h] at h2
      rw [h2]
      rfl

/-- The state of the previous theorem is reachable: one open stream, then a shutdown request. -/
example (E : Env) (A : Owner E) (loc : Destination) (hl : loc.hash.length = 32) :
    ∃ pa, let m := ((Mgr.new loc).run E [Op.packet pa true true 0, .shutdown]).1
      m.shut = .requested ∧ m.running = [(7, 0)] ∧ m.active 7 = some ⟨A.dest.hash, 0⟩ := by
  obtain ⟨pa, qa, a1, a2, a3, a4, a5, _⟩ := syn_signed E A loc.hash hl 7 (by decide)
  refine ⟨pa, ?_⟩
  have s1 := step_syn E (Mgr.new loc) pa true true 0 qa A.dest a2 rfl rfl (by simp [Mgr.new])
  simp only [a3, a4, Mgr.new, Mgr.onInbound, a5.1, a5.2, ne_eq, not_true_eq_false, if_false, if_true, Option.getD_some,
    Mgr.spawn, List.nil_append, Nat.zero_add] at s1
  simp only [Mgr.run, Mgr.new, s1]
  simp [Mgr.step, Mgr.shutdown, upd]

/-- C66 is violated when there is no stream: if none is running or pending at the time of the request, no history short
of the 60 s timer makes the manager report that it has shut down. -/
theorem C66_shutdown_without_streams_waits_for_timer_violated (E : Env) (m : Mgr) (h : m.shut = .requested)
    (hr : m.running = []) (hp : ∀ id, m.pendIn id = none) (ops : List Op) (ht : Op.shutTimer ∉ ops) :
    Out.shutDown ∉ (m.run E ops).2 := by
  induction ops generalizing m with
  | nil => simp [Mgr.run]
  | cons op ops ih =>
    have ht' : Op.shutTimer ∉ ops := fun hx => ht (List.mem_cons_of_mem _ hx)
    have key : (m.step E op).1.shut = .requested ∧ (m.step E op).1.running = [] ∧
        (∀ id, (m.step E op).1.pendIn id = none) ∧ Out.shutDown ∉ (m.step E op).2 := by
      cases op with
      | packet b room sock rnd =>
        simp only [Mgr.step]
        cases hs : m.onPacket E b room sock rnd with
        | none => exact ⟨h, hr, hp, by simp⟩
        | some r =>
          obtain ⟨m', os⟩ := r
          simp only [Option.getD_some]
          unfold Mgr.onPacket at hs
          unbind hs with info ei
          split at hs
          · simp only [Option.some.injEq, Prod.mk.injEq] at hs
            obtain ⟨rfl, rfl⟩ := hs
            exact ⟨h, hr, hp, by cases room <;> simp⟩
          · rw [hp] at hs
            simp only at hs
            rw [if_neg (by simp [h])] at hs
            unbind hs with p ep
            simp only [Option.pure_def, Option.some.injEq, Prod.mk.injEq] at hs
            obtain ⟨rfl, rfl⟩ := hs
            exact ⟨h, hr, hp, by simp⟩
      | create r i => simp only [Mgr.step, Mgr.createStream]; split <;> exact ⟨h, hr, hp, by simp⟩
      | removeSession d =>
        refine ⟨h, hr, ?_, by simp [Mgr.step]⟩
        intro id; simp [Mgr.step, Mgr.removeSession, hp]
      | accept i =>
        have e : m.step E (.accept i) = (m, []) := by simp [Mgr.step, Mgr.accept, hp]
        rw [e]; exact ⟨h, hr, hp, by simp⟩
      | finished i u =>
        have e : m.step E (.finished i u) = (m, []) := by simp [Mgr.step, Mgr.finished, hr]
        rw [e]; exact ⟨h, hr, hp, by simp⟩
      | synTimer i path =>
        simp only [Mgr.step, Mgr.synTimer]
        split
        · exact ⟨h, hr, hp, by simp⟩
        · split
          · split <;> exact ⟨h, hr, hp, by simp⟩
          · exact ⟨h, hr, hp, by simp⟩
      | prune s =>
        refine ⟨h, hr, ?_, by simp [Mgr.step]⟩
        intro id; simp [Mgr.step, Mgr.prune, hp]
      | shutdown => exact ⟨rfl, hr, hp, by simp [Mgr.step]⟩
      | shutTimer => exact absurd (by simp) ht
    obtain ⟨k1, k2, k3, k4⟩ := key
    simp only [Mgr.run, List.mem_append, not_or]
    exact ⟨k4, ih _ k1 k2 k3 ht'⟩

/-- The state exists: an idle manager that is asked to shut down. -/
example (loc : Destination) : (Mgr.new loc).shutdown.shut = .requested ∧ (Mgr.new loc).shutdown.running = [] :=
  ⟨rfl, rfl⟩

/-- C66 is violated after the forced shutdown: a manager that reported its shutdown opens new inbound streams. -/
theorem C66_stream_opened_after_shutdown_violated (E : Env) (A : Owner E) (loc : Destination)
    (hl : loc.hash.length = 32) (id : Nat) (hid : id < 2 ^ 32) :
    ∃ out, (syn A.dest loc.hash id).buildAndSign A.sign = some out ∧
      ((Mgr.new loc).run E [.shutdown, .shutTimer, .packet out true true 0]).2 =
        [.shutDown, .opened A.dest.hash true 0 id] := by
  obtain ⟨out, h1, h2, _⟩ := C65_syn_accepted E A { Mgr.new loc with shut := .done } hl id hid rfl rfl rfl (by simp) true 0
  refine ⟨out, h1, ?_⟩
  simp only [Mgr.run]
  have e : ((Mgr.new loc).step E .shutdown).1.step E .shutTimer = ({ Mgr.new loc with shut := .done }, [.shutDown]) := rfl
  simp only [e, h2]
  rfl

/-! ## C67: retried SYNs -/

/-- C67 is violated: while an inbound stream waits for a listener, a repeated SYN gets no answer, so a lost SYN-ACK is
never sent again. -/
theorem C67_repeated_syn_unanswered_violated (E : Env) (A : Owner E) (m : Mgr) (hm : m.destination.hash.length = 32)
    (id : Nat) (hid : id < 2 ^ 32) (ha : m.active id = none) (s : Pend) (hp : m.pendIn id = some s)
    (room sock : Bool) (rnd : Nat) :
    ∃ out, (syn A.dest m.destination.hash id).buildAndSign A.sign = some out ∧
      (m.step E (.packet out room sock rnd)).2 = [] := by
  obtain ⟨out, p, h1, h2, h3, h4, h5, h6, h7, h8, h9⟩ := syn_signed E A m.destination.hash hm id hid
  refine ⟨out, h1, ?_⟩
  have hi := C11_peek_agrees E out p h2.parse
  simp only [Mgr.step, Mgr.onPacket, hi, bind_some_val, h4, ha, hp, Mgr.onPending, h2.parse, h6, h8, h9,
    Stream.PendingStream.onPacket, Bool.or_self, Bool.false_eq_true, if_false, List.isEmpty_nil, Bool.true_or, if_true,
    Option.getD_some]

/-! ## C69 -/

/-- C69: a SYN is only sent for an id that is free, and nothing changes for any other id. -/
theorem C69_new_stream_takes_free_id (m : Mgr) (remote : Bytes) (id : Nat) :
    ((m.createStream remote id).2 ≠ [] → m.active id = none ∧ m.pendOut id = none) ∧
    (m.createStream remote id).1.active = m.active ∧ (m.createStream remote id).1.pendIn = m.pendIn ∧
    (∀ x o, m.pendOut x = some o → (m.createStream remote id).1.pendOut x = some o) ∧
    (∀ x, x ≠ id → (m.createStream remote id).1.pendOut x = m.pendOut x) := by
  simp only [Mgr.createStream]
  split
  · rename_i h
    simp only [Option.isNone_iff_eq_none] at h
    refine ⟨fun _ => h, rfl, rfl, ?_, ?_⟩
    · intro x o hx
      simp only [upd]
      split
      · rename_i he; subst he; rw [h.2] at hx; cases hx
      · exact hx
    · intro x hx; simp only [upd, hx, if_false]
  · exact ⟨fun h => absurd rfl h, rfl, rfl, fun _ _ h => h, fun _ _ => rfl⟩

example (loc : Destination) : ((Mgr.new loc).createStream [1] 5).2 ≠ [] ∧
    (((Mgr.new loc).createStream [1] 5).1.createStream [2] 5).2 = [] := by
  constructor <;> simp [Mgr.createStream, Mgr.new, upd]

/-! ## C70 -/

/-- The retry timer of `id`. -/
def IsTimer (id : Nat) (op : Op) : Prop := ∃ p, op = .synTimer id p

instance (id : Nat) (op : Op) : Decidable (IsTimer id op) :=
  match op with
  | .synTimer i p => if h : i = id then .isTrue ⟨p, by rw [h]⟩ else .isFalse (fun ⟨_, e⟩ => h (by injection e))
  | .packet .. | .create .. | .removeSession .. | .accept .. | .finished .. | .prune .. | .shutdown | .shutTimer =>
    .isFalse (fun ⟨_, e⟩ => by cases e)

/-- What the retry timer of `id` does during a history. -/
def timerOuts (E : Env) (id : Nat) (m : Mgr) : List Op → List Out
  | [] => []
  | op :: ops =>
    (if IsTimer id op then (m.step E op).2 else []) ++ timerOuts E id (m.step E op).1 ops

/-- No step but the timer of `id` and a new request changes a request, except by ending it. -/
theorem pendOut_step (E : Env) (m : Mgr) (op : Op) (id : Nat) (h1 : ∀ p, op ≠ .synTimer id p) (h2 : ∀ r, op ≠ .create r id) :
    (m.step E op).1.pendOut id = m.pendOut id ∨ (m.step E op).1.pendOut id = none := by
  cases op with
  | packet b room sock rnd =>
    simp only [Mgr.step]
    cases hs : m.onPacket E b room sock rnd with
    | none => left; rfl
    | some r =>
      simp only [Option.getD_some]
      unfold Mgr.onPacket at hs
      unbind hs with info ei
      split at hs
      · simp only [Option.some.injEq] at hs; subst hs; left; rfl
      · split at hs
        · simp only [Option.some.injEq] at hs; subst hs
          left
          simp only [Mgr.onPending]
          split
          · rfl
          · split <;> rfl
        · split at hs
          · unfold Mgr.onSyn at hs
            unbind hs with p ep
            unbind hs with d ed
            split at hs
            · simp only [Option.some.injEq] at hs; subst hs
              simp only [Mgr.spawn, upd]
              split
              · right; rfl
              · left; rfl
            · unfold Mgr.onInbound at hs
              split at hs
              · cases hs
              · split at hs
                · cases hs
                · split at hs
                  · simp only [Option.some.injEq] at hs; subst hs; left; rfl
                  · simp only [Option.some.injEq] at hs; subst hs; left; rfl
          · unbind hs with p ep
            simp only [Option.pure_def, Option.some.injEq] at hs; subst hs; left; rfl
  | create r i =>
    left
    exact (C69_new_stream_takes_free_id m r i).2.2.2.2 id (fun h => h2 r (by rw [h]))
  | removeSession d =>
    simp only [Mgr.step, Mgr.removeSession]
    split
    · right; rfl
    · left; rfl
  | accept i =>
    left
    simp only [Mgr.step, Mgr.accept]
    split <;> rfl
  | finished i u =>
    left
    simp only [Mgr.step, Mgr.finished]
    split
    · split
      · rfl
      · split <;> rfl
    · rfl
  | synTimer i p =>
    left
    have hi : id ≠ i := fun h => h1 p (by rw [h])
    simp only [Mgr.step, Mgr.synTimer]
    split
    · rfl
    · split
      · split <;> simp only [upd, hi, if_false]
      · rfl
  | prune s => left; rfl
  | shutdown => left; rfl
  | shutTimer =>
    left
    simp only [Mgr.step, Mgr.shutTimer]
    split <;> rfl

/-- The manager's own destination never changes. -/
theorem destination_step (E : Env) (m : Mgr) (op : Op) : (m.step E op).1.destination = m.destination := by
  cases op with
  | packet b room sock rnd =>
    simp only [Mgr.step]
    cases hs : m.onPacket E b room sock rnd with
    | none => rfl
    | some r =>
      simp only [Option.getD_some]
      unfold Mgr.onPacket at hs
      unbind hs with info ei
      split at hs
      · simp only [Option.some.injEq] at hs; subst hs; rfl
      · split at hs
        · simp only [Option.some.injEq] at hs; subst hs
          simp only [Mgr.onPending]
          split
          · rfl
          · split <;> rfl
        · split at hs
          · unfold Mgr.onSyn at hs
            unbind hs with p ep
            unbind hs with d ed
            split at hs
            · simp only [Option.some.injEq] at hs; subst hs; rfl
            · unfold Mgr.onInbound at hs
              split at hs
              · cases hs
              · split at hs
                · cases hs
                · split at hs
                  · simp only [Option.some.injEq] at hs; subst hs; rfl
                  · simp only [Option.some.injEq] at hs; subst hs; rfl
          · unbind hs with p ep
            simp only [Option.pure_def, Option.some.injEq] at hs; subst hs; rfl
  | create r i => simp only [Mgr.step, Mgr.createStream]; split <;> rfl
  | removeSession d => rfl
  | accept i => simp only [Mgr.step, Mgr.accept]; split <;> rfl
  | finished i u =>
    simp only [Mgr.step, Mgr.finished]
    split
    · split
      · rfl
      · split <;> rfl
    · rfl
  | synTimer i p =>
    simp only [Mgr.step, Mgr.synTimer]
    split
    · rfl
    · split
      · split <;> rfl
      · rfl
  | prune s => rfl
  | shutdown => rfl
  | shutTimer => simp only [Mgr.step, Mgr.shutTimer]; split <;> rfl

theorem timerOuts_none (E : Env) (id : Nat) (ops : List Op) : ∀ m : Mgr, m.pendOut id = none → (∀ r, Op.create r id ∉ ops) →
    timerOuts E id m ops = [] := by
  induction ops with
  | nil => intro m _ _; rfl
  | cons op ops ih =>
    intro m hm hc
    have hc' : ∀ r, Op.create r id ∉ ops := fun r h => hc r (List.mem_cons_of_mem _ h)
    have hcr : ∀ r, op ≠ .create r id := fun r h => hc r (by rw [h]; exact List.mem_cons_self)
    simp only [timerOuts]
    by_cases ht : IsTimer id op
    · rw [if_pos ht]
      obtain ⟨p, rfl⟩ := ht
      have hst : m.step E (.synTimer id p) = (m, []) := by simp only [Mgr.step, Mgr.synTimer, hm]
      rw [hst, List.nil_append]
      exact ih m hm hc'
    · have ht' : ∀ p, op ≠ .synTimer id p := fun p h => ht ⟨p, h⟩
      have hnext : (m.step E op).1.pendOut id = none := by
        rcases pendOut_step E m op id ht' hcr with h | h
        · rw [h, hm]
        · exact h
      rw [ih _ hnext hc', List.append_nil, if_neg ht]

/-- The retries left after `n` SYNs. -/
theorem timerOuts_some (E : Env) (id : Nat) (ops : List Op) : ∀ (m : Mgr) (o : Outb), m.pendOut id = some o → 1 ≤ o.numSent →
    o.numSent ≤ 3 → (∀ r, Op.create r id ∉ ops) →
    ∃ k, k + o.numSent ≤ 3 ∧
      (timerOuts E id m ops = List.replicate k (Out.send o.dest (syn m.destination o.dest id)) ∨
       (k + o.numSent = 3 ∧
        timerOuts E id m ops = List.replicate k (Out.send o.dest (syn m.destination o.dest id)) ++ [.rejected o.dest])) := by
  induction ops with
  | nil => intro m o _ h1 h3 _; exact ⟨0, by omega, Or.inl rfl⟩
  | cons op ops ih =>
    intro m o hm h1 h3 hc
    have hc' : ∀ r, Op.create r id ∉ ops := fun r h => hc r (List.mem_cons_of_mem _ h)
    have hcr : ∀ r, op ≠ .create r id := fun r h => hc r (by rw [h]; exact List.mem_cons_self)
    simp only [timerOuts]
    by_cases ht : IsTimer id op
    · rw [if_pos ht]
      obtain ⟨p, rfl⟩ := ht
      cases p with
      | false =>
        have hst : m.step E (.synTimer id false) = (m, []) := by simp [Mgr.step, Mgr.synTimer, hm]
        rw [hst]
        exact ih m o hm h1 h3 hc'
      | true =>
        by_cases hlt : o.numSent < 3
        · have hst : m.step E (.synTimer id true) =
              ({ m with pendOut := upd m.pendOut id (some { o with numSent := o.numSent + 1 }) },
               [.send o.dest (syn m.destination o.dest id)]) := by simp [Mgr.step, Mgr.synTimer, hm, hlt]
          rw [hst]
          obtain ⟨k, hk, hkk⟩ := ih { m with pendOut := upd m.pendOut id (some { o with numSent := o.numSent + 1 }) }
            { o with numSent := o.numSent + 1 } (by simp [upd]) (by simp) (by simp only; omega) hc'
          simp only at hk hkk
          refine ⟨k + 1, by omega, ?_⟩
          rcases hkk with h | ⟨he, h⟩
          · left; rw [h]; rfl
          · right; exact ⟨by omega, by rw [h]; rfl⟩
        · have hst : m.step E (.synTimer id true) = ({ m with pendOut := upd m.pendOut id none }, [.rejected o.dest]) := by
            simp [Mgr.step, Mgr.synTimer, hm, hlt]
          rw [hst]
          refine ⟨0, by omega, Or.inr ⟨by omega, ?_⟩⟩
          rw [timerOuts_none E id ops _ (by simp [upd]) hc']
          rfl
    · have ht' : ∀ p, op ≠ .synTimer id p := fun p h => ht ⟨p, h⟩
      rw [if_neg ht, List.nil_append]
      rcases pendOut_step E m op id ht' hcr with h | h
      · have := ih (m.step E op).1 o (by rw [h, hm]) h1 h3 hc'
        rw [destination_step] at this
        exact this
      · exact ⟨0, by omega, Or.inl (timerOuts_none E id ops _ h hc')⟩

/-- C70: a connection request sends one SYN at once; whatever happens afterwards (until the id is requested again), its
timer sends that SYN at most twice more, and reports a rejection, if at all, once, after both. -/
theorem C70_connection_attempts_bounded (E : Env) (m : Mgr) (remote : Bytes) (id : Nat)
    (hfree : m.active id = none ∧ m.pendOut id = none) (ops : List Op) (hc : ∀ r, Op.create r id ∉ ops) :
    (m.step E (.create remote id)).2 = [.send remote (syn m.destination remote id)] ∧
    ∃ k, k ≤ 2 ∧
      (timerOuts E id (m.step E (.create remote id)).1 ops = List.replicate k (.send remote (syn m.destination remote id)) ∨
       (k = 2 ∧ timerOuts E id (m.step E (.create remote id)).1 ops =
          List.replicate k (.send remote (syn m.destination remote id)) ++ [.rejected remote])) := by
  have hst : m.step E (.create remote id) =
      ({ m with pendOut := upd m.pendOut id (some { dest := remote, numSent := 1 })
                destStreams := upd m.destStreams remote (id :: m.destStreams remote) },
       [.send remote (syn m.destination remote id)]) := by
    simp only [Mgr.step, Mgr.createStream, hfree.1, hfree.2, Option.isNone_none, and_self, if_true]
  rw [hst]
  refine ⟨rfl, ?_⟩
  obtain ⟨k, hk, h⟩ := timerOuts_some E id ops
    { m with pendOut := upd m.pendOut id (some { dest := remote, numSent := 1 })
             destStreams := upd m.destStreams remote (id :: m.destStreams remote) }
    { dest := remote, numSent := 1 } (by simp [upd]) (by simp) (by simp) hc
  simp only at hk h
  refine ⟨k, by omega, ?_⟩
  rcases h with h | ⟨he, h⟩
  · exact Or.inl h
  · exact Or.inr ⟨by omega, h⟩

/-- Three timers: two more SYNs, then the rejection, and silence. -/
theorem C70_unanswered_request_is_rejected (E : Env) (m : Mgr) (remote : Bytes) (id : Nat)
    (hfree : m.active id = none ∧ m.pendOut id = none) (n : Nat) :
    (m.run E (.create remote id :: List.replicate (3 + n) (.synTimer id true))).2 =
      List.replicate 3 (.send remote (syn m.destination remote id)) ++ [.rejected remote] := by
  have hq : ∀ (n : Nat) (m : Mgr), m.pendOut id = none → (m.run E (List.replicate n (.synTimer id true))).2 = [] := by
    intro n
    induction n with
    | zero => intro m _; rfl
    | succ n ih =>
      intro m hm
      have hst : m.step E (.synTimer id true) = (m, []) := by simp only [Mgr.step, Mgr.synTimer, hm]
      simp only [List.replicate_succ, Mgr.run, hst, List.nil_append]
      exact ih m hm
  rw [show 3 + n = n + 1 + 1 + 1 by omega]
  simp only [List.replicate_succ, Mgr.run, Mgr.step, Mgr.createStream, Mgr.synTimer, hfree.1, hfree.2, Option.isNone_none, and_self,
    if_true, upd, Nat.lt_irrefl, if_false, Nat.reduceAdd, Nat.reduceLT]
  rw [hq]
  · rfl
  · simp [upd]

end Emissary.Mgr
