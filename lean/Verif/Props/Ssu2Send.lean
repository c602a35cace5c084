import Verif.Model.Ssu2Send
import Verif.Props.I2np
import Verif.Props.Ssu2Fragment
/-!
# C299: an SSU2 session can send what the router has to forward
-/
namespace Emissary.Ssu2
open Emissary.I2np

/-- The message as it arrives: whole seconds, and the fields with the size they have on the wire. -/
def onWire (m : Message) : Message := { m with id := m.id % 2 ^ 32, expiration := m.expiration / 1000000000 % 2 ^ 32 * 1000000000 }

theorem parse_any (m : Message) (r : Bytes) (hne : m.payload ≠ []) (hlen : m.payload.length ≤ 65526) : Message.parseShort (m.serializeShort ++ r) = some (onWire m, r) := by
  have hpos : 0 < m.payload.length := List.length_pos_iff.mpr hne
  have h0 : (m.payload.length + 9) % 256 ^ 2 = m.payload.length + 9 := Nat.mod_eq_of_lt (by omega)
  have h1 : m.type.code % 256 ^ 1 = m.type.code := Nat.mod_eq_of_lt (by simpa using m.type.code_lt)
  have h4 : ¬ (m.payload.length + 9 ≤ 9) := by omega
  simp only [Message.parseShort, Message.serializeShort, List.append_assoc, beU_be, bind_some_pair,
    h0, h1, h4, if_false, Nat.add_sub_cancel, takeN_append (Eq.refl m.payload.length),
    MessageType.ofCode_code]
  rfl

/-- Every message with a payload of 1 to 65526 bytes can be sent. If its identifier and its expiration fit the header, the blocks are those of the message with the expiration in whole
seconds. -/
theorem C299_sent (m : Message) (hne : m.payload ≠ []) (hlen : m.payload.length ≤ 65526) :
    sendBytes m.serializeShort ≠ none ∧
    (m.id < 2 ^ 32 → m.expiration / 1000000000 < 2 ^ 32 → sendBytes m.serializeShort = some (sendMessage { m with expiration := m.expiration / 1000000000 * 1000000000 })) := by
  have h := parse_any m [] hne hlen
  rw [List.append_nil] at h
  unfold sendBytes
  rw [h]
  refine ⟨by simp, fun h1 h2 => ?_⟩
  simp only [onWire, Nat.mod_eq_of_lt h1, Nat.mod_eq_of_lt h2]

/-- What was received with a short header can be sent on. -/
theorem C299_received (input rest : Bytes) (m : Message) (received : Message.parseShort input = some (m, rest)) : sendBytes m.serializeShort ≠ none := by
  have h := C16_short_header_parse_exact received
  refine (C299_sent m h.2 ?_).1
  apply Classical.byContradiction
  intro hl
  have h' := received
  rw [h.1] at h'
  exact absurd (C18_short_header_size_wraps_violated m rest (by omega) m rest h') (Nat.lt_irrefl _)

theorem standard_len {input rest : Bytes} {m : Message} (h : Message.parseStandard input = some (m, rest)) : m.payload ≠ [] ∧ m.payload.length + 16 ≤ input.length := by
  simp only [Message.parseStandard] at h
  obtain ⟨⟨ty, r1⟩, e1, h⟩ := Option.bind_eq_some_iff.mp h
  obtain ⟨⟨id, r2⟩, e2, h⟩ := Option.bind_eq_some_iff.mp h
  obtain ⟨⟨exp, r3⟩, e3, h⟩ := Option.bind_eq_some_iff.mp h
  obtain ⟨⟨size, r4⟩, e4, h⟩ := Option.bind_eq_some_iff.mp h
  obtain ⟨⟨ck, r5⟩, e5, h⟩ := Option.bind_eq_some_iff.mp h
  obtain ⟨⟨pl, r6⟩, e6, h⟩ := Option.bind_eq_some_iff.mp h
  simp only at h e2 e3 e4 e5 e6
  split at h
  · cases h
  rename_i hp
  obtain ⟨t, e7, h⟩ := Option.bind_eq_some_iff.mp h
  simp only [Option.pure_def, Option.some.injEq, Prod.mk.injEq] at h
  obtain ⟨rfl, rfl⟩ := h
  obtain ⟨rfl, b1⟩ := beU_some e1
  obtain ⟨rfl, b2⟩ := beU_some e2
  obtain ⟨rfl, b3⟩ := beU_some e3
  obtain ⟨rfl, b4⟩ := beU_some e4
  obtain ⟨rfl, b5⟩ := beU_some e5
  obtain ⟨rfl, b6⟩ := takeN_some e6
  refine ⟨by simpa using hp, ?_⟩
  simp only [List.length_append, be_length]
  omega

/-- What was received for a tunnel, in a message to its gateway or in any other way of less than 65536 bytes, can be sent on: with the header of messages inside of tunnels it leaves at
most 65519 bytes. -/
theorem C299_tunnels (input rest : Bytes) (short : input.length < 65536) (m : Message) (received : Message.parseStandard input = some (m, rest)) : sendBytes m.serializeShort ≠ none := by
  have h := standard_len received
  exact (C299_sent m h.1 (by omega)).1

/-- In particular what the gateway of a tunnel is given for it. -/
theorem C299_gateway (input rest : Bytes) (t : TunnelGateway) (given : TunnelGateway.parse input = some (t, rest)) (m : Message) (rest' : Bytes)
    (received : Message.parseStandard t.payload = some (m, rest')) : sendBytes m.serializeShort ≠ none := by
  refine C299_tunnels t.payload rest' ?_ m received
  simp only [TunnelGateway.parse] at given
  obtain ⟨⟨id, r1⟩, e1, h⟩ := Option.bind_eq_some_iff.mp given
  obtain ⟨⟨size, r2⟩, e2, h⟩ := Option.bind_eq_some_iff.mp h
  obtain ⟨⟨pl, r3⟩, e3, h⟩ := Option.bind_eq_some_iff.mp h
  simp only [Option.pure_def, Option.some.injEq, Prod.mk.injEq] at h
  obtain ⟨rfl, rfl⟩ := h
  obtain ⟨_, b2⟩ := beU_some e2
  obtain ⟨_, b3⟩ := takeN_some e3
  simp only at b3 ⊢
  omega

/-- A message without a payload, or with one of 65527 to 65536 bytes, brings the session down. -/
theorem C299_size_violated (m : Message) (odd : m.payload = [] ∨ 65527 ≤ m.payload.length ∧ m.payload.length ≤ 65536) : sendBytes m.serializeShort = none := by
  have : Message.parseShort m.serializeShort = none := by
    have hs : (m.payload.length + 9) % 256 ^ 2 ≤ 9 := by
      rcases odd with h | h
      · rw [h]; decide
      · have : (m.payload.length + 9) % 65536 = m.payload.length + 9 - 65536 := by omega
        show (m.payload.length + 9) % 65536 ≤ 9
        omega
    simp only [Message.parseShort, Message.serializeShort, List.append_assoc, beU_be, bind_some_pair, hs, if_true]
  unfold sendBytes
  rw [this]

/-- Of a longer one only a part is sent. -/
theorem C299_cut_violated (m : Message) (long : 65526 < m.payload.length) (blocks : List MBlock) (sent : sendBytes m.serializeShort = some blocks) :
    ∃ m' : Message, blocks = sendMessage m' ∧ m'.payload.length < m.payload.length := by
  unfold sendBytes at sent
  split at sent
  · cases sent
  · rename_i m' r h
    cases sent
    exact ⟨m', rfl, C18_short_header_size_wraps_violated m [] long m' r (by rw [List.append_nil]; exact h)⟩

/-! ## The hypotheses can be met -/

example : sendBytes (Message.mk .data 7 5500000000 [1, 2, 3]).serializeShort = some [.i2np ⟨.data, 7, 5000000000, [1, 2, 3]⟩] := by decide +kernel

example := C299_received (Message.mk .data 7 5000000000 [1, 2, 3]).serializeShort [] ⟨.data, 7, 5000000000, [1, 2, 3]⟩ (by decide +kernel)

example := C299_tunnels ((Message.mk .data 7 5000000000 [1, 2, 3]).serializeStandard id) [] (by decide +kernel) ⟨.data, 7, 5000000000, [1, 2, 3]⟩ (by decide +kernel)

example := C299_size_violated ⟨.data, 7, 0, List.replicate 65530 1⟩ (.inr ⟨by rw [List.length_replicate]; omega, by rw [List.length_replicate]; omega⟩)

end Emissary.Ssu2
