import Verif.Model.StreamPacket
import Verif.Props.Primitives
/-!
# Properties of streaming packets (C11)
-/
namespace Emissary.Pkt
open Emissary Emissary.Prim

/-- Values a builder holds: 32-bit ids and numbers, at most 255 nacks, 16-bit option values, a destination that
parses back from its own bytes (C26: every parsed or created destination does), options within 16 bits. -/
structure Builder.Ok (E : Env) (b : Builder) : Prop where
  send : b.sendStreamId < 2 ^ 32
  recv : b.recvStreamId < 2 ^ 32
  seq : b.seq < 2 ^ 32
  ack : b.ackThrough < 2 ^ 32
  nacksLen : (b.nacks.getD []).length ≤ 255
  nacks : ∀ n ∈ b.nacks.getD [], n < 2 ^ 32
  delay : b.resendDelay < 256
  reqDelay : ∀ d, b.requestedDelay = some d → d < 65536
  mtu : ∀ d, b.maxPacketSize = some d → d < 65536
  dest : ∀ d, b.destination = some d → ∀ r, Destination.parse E (d.serialized ++ r) = some (d, r)

/-- The packet a receiver must see for a builder and signature. -/
def Builder.expected (b : Builder) (sig : Option Bytes) : Packet :=
  { sendStreamId := b.sendStreamId, recvStreamId := b.recvStreamId, seq := b.seq, ackThrough := b.ackThrough
    nacks := b.nacks.getD [], resendDelay := b.resendDelay
    flags := { destination := b.destination, flags := b.flags, maxPacketSize := b.maxPacketSize, offline := none
               requestedDelay := b.requestedDelay, signature := sig }
    payload := b.payload.getD [] }

theorem takeNacks_ser (l : List Nat) (h : ∀ n ∈ l, n < 2 ^ 32) (r : Bytes) :
    takeNacks l.length ((l.map (be 4)).flatten ++ r) = some (l, r) := by
  induction l with
  | nil => rfl
  | cons a t ih =>
    have e : a % 256 ^ 4 = a := Nat.mod_eq_of_lt (by have := h a (by simp); omega)
    simp only [List.length_cons, takeNacks, List.map_cons, List.flatten_cons, List.append_assoc, beU_be, bind_some_pair,
      ih (fun n hn => h n (List.mem_cons_of_mem _ hn)), e]
    rfl

theorem bool_le (b : Bool) : b.toNat ≤ 1 := by cases b <;> decide

theorem flags_bits (b : Builder) : b.flags < 2 ^ 16 ∧ bit b.flags 0 = b.synchronize ∧ bit b.flags 1 = b.close ∧
    bit b.flags 2 = b.reset ∧ bit b.flags 3 = b.signature ∧ bit b.flags 5 = b.destination.isSome ∧
    bit b.flags 6 = b.requestedDelay.isSome ∧ bit b.flags 7 = b.maxPacketSize.isSome ∧ bit b.flags 9 = b.echo ∧
    bit b.flags 10 = b.noAck ∧ bit b.flags 11 = false := by
  unfold Builder.flags bit
  generalize b.destination.isSome = d
  generalize b.requestedDelay.isSome = q
  generalize b.maxPacketSize.isSome = m
  generalize b.synchronize = s
  generalize b.close = c
  generalize b.reset = r
  generalize b.signature = g
  generalize b.echo = e
  generalize b.noAck = n
  revert d q m s c r g e n
  decide +kernel

theorem optP_delay (o : Option Nat) (h : ∀ d, o = some d → d < 65536) (r : Bytes) :
    optP o.isSome (beU 2) (putOpt o ++ r) = some (o, r) := by
  cases o with
  | none => rfl
  | some d =>
    have e : d % 256 ^ 2 = d := Nat.mod_eq_of_lt (by have := h d rfl; omega)
    simp only [optP, putOpt, Option.isSome, if_true, beU_be, e]
    rfl

theorem optP_dest {E : Env} (o : Option Destination)
    (h : ∀ d, o = some d → ∀ r, Destination.parse E (d.serialized ++ r) = some (d, r)) (r : Bytes) :
    optP o.isSome (Destination.parse E) (putDest o ++ r) = some (o, r) := by
  cases o with
  | none => rfl
  | some d =>
    simp only [optP, putDest, Option.isSome, if_true, h d rfl]
    rfl

/-- Parsing the options of a builder whose signature field holds `sig`. -/
theorem Flags_parse {E : Env} {b : Builder} (h : b.Ok E) (sig : Bytes)
    (hs : b.signature = true → ∃ d, b.destination = some d ∧ sig.length = d.key.sigLen) :
    Flags.parse E b.flags (b.options sig) =
      some ((b.expected (if b.signature then some sig else none)).flags, []) := by
  obtain ⟨_, _, _, _, h3, h5, h6, h7, _, _, h11⟩ := flags_bits b
  unfold Flags.parse Builder.options Builder.optionFields
  rw [h3, h5, h6, h7, h11]
  simp only [List.append_assoc, optP_delay b.requestedDelay h.reqDelay, bind_some_pair, optP_dest b.destination h.dest,
    optP_delay b.maxPacketSize h.mtu, parseOffline, Bool.false_eq_true, if_false]
  cases hg : b.signature with
  | false =>
    have := optP_delay b.maxPacketSize h.mtu []
    rw [List.append_nil] at this
    simp [parseSignature, Builder.expected, this]
  | true =>
    obtain ⟨d, hd, hl⟩ := hs hg
    simp only [parseSignature, hd, if_true, takeN, hl, Nat.le_refl, List.take_of_length_le (Nat.le_of_eq hl),
      List.drop_of_length_le (Nat.le_of_eq hl), Option.map_some]
    simp [Builder.expected, hd]

theorem parse_bytes {E : Env} {b : Builder} (h : b.Ok E) (sig : Bytes)
    (hs : b.signature = true → ∃ d, b.destination = some d ∧ sig.length = d.key.sigLen)
    (ho : (b.options sig).length < 65536) :
    Packet.parse E (b.bytes sig) = some (b.expected (if b.signature then some sig else none)) := by
  have e1 : b.sendStreamId % 256 ^ 4 = b.sendStreamId := Nat.mod_eq_of_lt (by have := h.send; omega)
  have e2 : b.recvStreamId % 256 ^ 4 = b.recvStreamId := Nat.mod_eq_of_lt (by have := h.recv; omega)
  have e3 : b.seq % 256 ^ 4 = b.seq := Nat.mod_eq_of_lt (by have := h.seq; omega)
  have e4 : b.ackThrough % 256 ^ 4 = b.ackThrough := Nat.mod_eq_of_lt (by have := h.ack; omega)
  have e5 : (b.nacks.getD []).length % 256 ^ 1 = (b.nacks.getD []).length :=
    Nat.mod_eq_of_lt (by have := h.nacksLen; omega)
  have e6 : b.resendDelay % 256 ^ 1 = b.resendDelay := Nat.mod_eq_of_lt (by have := h.delay; omega)
  have e7 : b.flags % 256 ^ 2 = b.flags := Nat.mod_eq_of_lt (by have := (flags_bits b).1; omega)
  have e8 : (b.options sig).length % 256 ^ 2 = (b.options sig).length := Nat.mod_eq_of_lt (by omega)
  simp only [Packet.parse, Builder.bytes, List.append_assoc, beU_be, bind_some_pair, e1, e2, e3, e4, e5, e6, e7, e8,
    takeNacks_ser _ h.nacks, takeN_append (Eq.refl (b.options sig).length), Flags_parse h sig hs]
  rfl

/-- C11: for every unsigned packet the builder can make, parsing returns exactly the fields it was given, and the
flag accessors return the flags that were set. -/
theorem C11_packet_roundtrip (E : Env) (b : Builder) (h : b.Ok E) (hu : b.signature = false)
    (ho : (b.options []).length < 65536) :
    ∃ out p, b.build = some out ∧ Packet.parse E out = some p ∧
      p.sendStreamId = b.sendStreamId ∧ p.recvStreamId = b.recvStreamId ∧ p.seq = b.seq ∧
      p.ackThrough = b.ackThrough ∧ p.nacks = b.nacks.getD [] ∧ p.resendDelay = b.resendDelay ∧
      p.payload = b.payload.getD [] ∧ p.flags.synchronize = b.synchronize ∧ p.flags.close = b.close ∧
      p.flags.reset = b.reset ∧ p.flags.echo = b.echo ∧ p.flags.noAck = b.noAck ∧
      p.flags.destination = b.destination ∧ p.flags.requestedDelay = b.requestedDelay ∧
      p.flags.maxPacketSize = b.maxPacketSize ∧ p.flags.signature = none ∧ p.flags.offline = none := by
  refine ⟨b.bytes [], b.expected none, by simp [Builder.build, hu], ?_, ?_⟩
  · have := parse_bytes h [] (by simp [hu]) ho
    simpa [hu] using this
  · obtain ⟨_, h0, h1, h2, _, _, _, _, h9, h10, _⟩ := flags_bits b
    exact ⟨rfl, rfl, rfl, rfl, rfl, rfl, rfl, h0, h1, h2, h9, h10, rfl, rfl, rfl, rfl, rfl⟩

theorem signed_bytes (b : Builder) (hb : b.signature = true) (sign : Bytes → Bytes)
    (hl : ∀ m, (sign m).length = 64) :
    b.buildAndSign sign = some (b.bytes (sign (b.bytes (List.replicate 64 0)))) := by
  have hl' := hl (b.bytes (List.replicate 64 0))
  unfold Builder.buildAndSign
  rw [if_pos hb]
  simp only [Option.some.injEq]
  generalize sign (b.bytes (List.replicate 64 0)) = s at hl' ⊢
  obtain ⟨out, h0, h2⟩ : ∃ pre : Bytes, b.bytes (List.replicate 64 0) = pre ++ List.replicate 64 0 ++ b.payload.getD []
      ∧ b.bytes s = pre ++ s ++ b.payload.getD [] := by
    refine ⟨be 4 b.sendStreamId ++ be 4 b.recvStreamId ++ be 4 b.seq ++ be 4 b.ackThrough ++
      be 1 (b.nacks.getD []).length ++ ((b.nacks.getD []).map (be 4)).flatten ++ be 1 b.resendDelay ++ be 2 b.flags ++
      be 2 (b.optionFields.length + 64) ++ b.optionFields, ?_, ?_⟩ <;>
    simp [Builder.bytes, Builder.options, hb, hl']
  rw [h0, h2]
  have e : (out ++ List.replicate 64 0 ++ b.payload.getD []).length - 64 - (b.payload.getD []).length
      = out.length := by simp; omega
  rw [e, overwrite, hl', List.drop_left' (by simp), List.append_assoc out (List.replicate 64 0), List.take_left]

/-- C11, signed packets: with the sender's destination included, parsing a signed packet returns every field, and the
signature seen is the one made over the same packet with the signature field zeroed. -/
theorem C11_signed_packet_roundtrip (E : Env) (b : Builder) (h : b.Ok E) (hu : b.signature = true)
    (sign : Bytes → Bytes) (hl : ∀ m, (sign m).length = 64) (d : Destination) (hd : b.destination = some d)
    (hk : d.key.sigLen = 64) (ho : (b.options (List.replicate 64 0)).length < 65536) :
    ∃ out p, b.buildAndSign sign = some out ∧ Packet.parse E out = some p ∧
      p.flags.signature = some (sign (b.bytes (List.replicate 64 0))) ∧ p.flags.destination = some d ∧
      p = b.expected p.flags.signature := by
  refine ⟨_, b.expected (some (sign (b.bytes (List.replicate 64 0)))), signed_bytes b hu sign hl, ?_, rfl, hd, rfl⟩
  · have := parse_bytes h (sign (b.bytes (List.replicate 64 0))) (fun _ => ⟨d, hd, by rw [hl, hk]⟩)
      (by simpa [Builder.options, hu, hl] using ho)
    simpa [hu] using this

/-- C11, the cheap header look-up agrees with the full parser on every input. -/
theorem C11_peek_agrees (E : Env) (input : Bytes) (p : Packet) (h : Packet.parse E input = some p) :
    Packet.peek input = some { flags := p.flags.flags, recvStreamId := p.recvStreamId,
                               sendStreamId := p.sendStreamId, seq := p.seq } := by
  have hn : ∀ (n : Nat) (i r : Bytes) (l : List Nat), takeNacks n i = some (l, r) →
      4 * n ≤ i.length ∧ r = i.drop (4 * n) := by
    intro n
    induction n with
    | zero => intro i r l h; simp [takeNacks] at h; simp [h.2]
    | succ n ih =>
      intro i r l h
      simp only [takeNacks] at h
      unbind h with ⟨a, r1⟩ e1
      unbind h with ⟨t, r2⟩ e2
      simp only [Option.pure_def, Option.some.injEq, Prod.mk.injEq] at h
      obtain ⟨rfl, rfl⟩ := h
      obtain ⟨h1, h2⟩ := ih _ _ _ e2
      simp only [beU] at e1
      split at e1
      · simp only [Option.some.injEq, Prod.mk.injEq] at e1
        obtain ⟨_, rfl⟩ := e1
        simp only [List.length_drop] at h1
        refine ⟨by omega, ?_⟩
        rw [h2, List.drop_drop]; congr 1; omega
      · cases e1
  unfold Packet.parse at h
  unbind h with ⟨send, r1⟩ e1
  unbind h with ⟨recv, r2⟩ e2
  unbind h with ⟨seq, r3⟩ e3
  unbind h with ⟨ack, r4⟩ e4
  unbind h with ⟨n, r5⟩ e5
  unbind h with ⟨nacks, r6⟩ e6
  unbind h with ⟨delay, r7⟩ e7
  unbind h with ⟨flags, r8⟩ e8
  unbind h with ⟨size, r9⟩ e9
  unbind h with ⟨options, r10⟩ e10
  unbind h with ⟨f, r11⟩ e11
  simp only [Option.pure_def, Option.some.injEq] at h
  subst h
  obtain ⟨h1, h2⟩ := hn _ _ _ _ e6
  have hf : f.flags = flags := by
    unfold Flags.parse at e11
    unbind e11 with ⟨_, _⟩ g1
    unbind e11 with ⟨_, _⟩ g2
    unbind e11 with ⟨_, _⟩ g3
    unbind e11 with ⟨_, _⟩ g4
    unbind e11 with ⟨_, _⟩ g5
    simp only [Option.pure_def, Option.some.injEq, Prod.mk.injEq] at e11
    rw [← e11.1]
  have e4' : takeN 4 r3 = some (r3.take 4, r4) := by
    simp only [beU] at e4
    split at e4
    · rename_i hh
      simp only [Option.some.injEq, Prod.mk.injEq] at e4
      simp [takeN, hh, e4.2]
    · cases e4
  have e7' : takeN (4 * n + 1) r5 = some (r5.take (4 * n + 1), r7) := by
    simp only [beU] at e7
    split at e7
    · rename_i hh
      simp only [Option.some.injEq, Prod.mk.injEq] at e7
      have hl : 4 * n + 1 ≤ r5.length := by
        rw [h2, List.length_drop] at hh; omega
      simp only [takeN, hl, if_true, Option.some.injEq, Prod.mk.injEq, true_and]
      rw [← e7.2, h2, List.drop_drop]
    · cases e7
  simp only [Packet.peek, e1, e2, e3, e4', e5, e7', e8, bind_some_pair, hf]
  rfl

/-- C11 is violated for signed packets without the sender's destination: whatever signature was put on the wire, the
parser reports an empty one. -/
theorem C11_signature_lost_without_destination_violated (E : Env) (input : Bytes) (p : Packet)
    (h : Packet.parse E input = some p) (hd : p.flags.destination = none) (hs : bit p.flags.flags 3 = true) :
    p.flags.signature = some [] := by
  unfold Packet.parse at h
  unbind h with ⟨send, r1⟩ e1
  unbind h with ⟨recv, r2⟩ e2
  unbind h with ⟨seq, r3⟩ e3
  unbind h with ⟨ack, r4⟩ e4
  unbind h with ⟨n, r5⟩ e5
  unbind h with ⟨nacks, r6⟩ e6
  unbind h with ⟨delay, r7⟩ e7
  unbind h with ⟨flags, r8⟩ e8
  unbind h with ⟨size, r9⟩ e9
  unbind h with ⟨options, r10⟩ e10
  unbind h with ⟨f, r11⟩ e11
  simp only [Option.pure_def, Option.some.injEq] at h
  subst h
  unfold Flags.parse at e11
  unbind e11 with ⟨delay, q1⟩ g1
  unbind e11 with ⟨dest, q2⟩ g2
  unbind e11 with ⟨mtu, q3⟩ g3
  unbind e11 with ⟨off, q4⟩ g4
  unbind e11 with ⟨sig, q5⟩ g5
  simp only [Option.pure_def, Option.some.injEq, Prod.mk.injEq] at e11
  obtain ⟨rfl, rfl⟩ := e11
  simp only at hd hs ⊢
  subst hd
  simp only [parseSignature, hs, if_true, Option.some.injEq, Prod.mk.injEq] at g5
  rw [← g5.1]; simp

/-- A concrete packet with nacks, options and payload meets the hypotheses of the round trip. -/
example (E : Env) : (⟨1, 2, 3, 4, some [5, 6], 7, false, true, false, false, none, some 8, some 1812, true, true,
    some [1, 2, 3]⟩ : Builder).Ok E := by
  constructor <;> simp

example (E : Env) (key padding : Bytes) (hk : key.length = 32) (hp : padding.length = 352)
    (hv : E.keyOk (.ed25519 key) = true) :
    (⟨0, 2, 0, 0, some [5, 6], 7, true, false, false, true, some (Destination.new E key padding), none, none, false,
      false, none⟩ : Builder).Ok E ∧ (Destination.new E key padding).key.sigLen = 64 := by
  refine ⟨?_, rfl⟩
  constructor <;> simp
  exact fun r => C26_new_destination_roundtrip E key padding r hk hp hv

end Emissary.Pkt
