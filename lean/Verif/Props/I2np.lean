import Verif.Model.I2np
import Verif.Lemmas.Bytes
import Verif.Lemmas.Codec
/-!
# Properties of I2NP message codecs (C16–C21)

Each round-trip theorem has an arbitrary tail `r`: the parser returns exactly the message and leaves `r`.
-/
namespace Emissary.I2np
open Emissary

theorem MessageType.code_lt (t : MessageType) : t.code < 256 := by cases t <;> decide
theorem MessageType.ofCode_code (t : MessageType) : MessageType.ofCode t.code = some t := by cases t <;> rfl
theorem MessageType.code_of_ofCode {n : Nat} {t : MessageType} (h : MessageType.ofCode n = some t) :
    t.code = n := by
  unfold MessageType.ofCode at h
  split at h <;> simp only [Option.some.injEq, reduceCtorEq] at h <;> subst h <;> rfl

/-! ## C16: short header -/

/-- C16: a message with a non-empty payload of at most 65526 bytes, parsed from its short form followed by any
bytes, is returned with its type, id, expiration truncated to a whole second, and payload; the tail is left. -/
theorem C16_short_header_roundtrip (m : Message) (r : Bytes)
    (hid : m.id < 2 ^ 32) (hexp : m.expiration / 1000000000 < 2 ^ 32)
    (hne : m.payload ≠ []) (hlen : m.payload.length ≤ 65526) :
    Message.parseShort (m.serializeShort ++ r)
      = some ({ m with expiration := m.expiration / 1000000000 * 1000000000 }, r) := by
  have hpos : 0 < m.payload.length := List.length_pos_iff.mpr hne
  have h0 : (m.payload.length + 9) % 256 ^ 2 = m.payload.length + 9 := Nat.mod_eq_of_lt (by omega)
  have h1 : m.type.code % 256 ^ 1 = m.type.code := Nat.mod_eq_of_lt (by simpa using m.type.code_lt)
  have h2 : m.id % 256 ^ 4 = m.id := Nat.mod_eq_of_lt (by omega)
  have h3 : asSecs m.expiration % 256 ^ 4 = asSecs m.expiration :=
    Nat.mod_eq_of_lt (by unfold asSecs; omega)
  have h4 : ¬ (m.payload.length + 9 ≤ 9) := by omega
  simp only [Message.parseShort, Message.serializeShort, List.append_assoc, beU_be, bind_some_pair,
    h0, h1, h2, h3, h4, if_false, Nat.add_sub_cancel, takeN_append (Eq.refl m.payload.length),
    MessageType.ofCode_code]
  rfl

/-- C16, converse: whatever the short parser accepts is the short form of the message it returns followed by the
bytes it leaves, so two different messages never share a wire image and nothing beyond the announced size is read. -/
theorem C16_short_header_parse_exact {input r : Bytes} {m : Message}
    (h : Message.parseShort input = some (m, r)) :
    input = m.serializeShort ++ r ∧ m.payload ≠ [] := by
  simp only [Message.parseShort] at h
  obtain ⟨⟨size, r1⟩, e1, h⟩ := Option.bind_eq_some_iff.mp h
  obtain ⟨⟨ty, r2⟩, e2, h⟩ := Option.bind_eq_some_iff.mp h
  obtain ⟨⟨id, r3⟩, e3, h⟩ := Option.bind_eq_some_iff.mp h
  obtain ⟨⟨exp, r4⟩, e4, h⟩ := Option.bind_eq_some_iff.mp h
  simp only at h e2 e3 e4
  split at h
  · cases h
  rename_i hs
  obtain ⟨⟨pl, r5⟩, e5, h⟩ := Option.bind_eq_some_iff.mp h
  obtain ⟨t, e6, h⟩ := Option.bind_eq_some_iff.mp h
  simp only [Option.pure_def, Option.some.injEq, Prod.mk.injEq] at h
  obtain ⟨rfl, rfl⟩ := h
  obtain ⟨rfl, b1⟩ := beU_some e1
  obtain ⟨rfl, b2⟩ := beU_some e2
  obtain ⟨rfl, b3⟩ := beU_some e3
  obtain ⟨rfl, b4⟩ := beU_some e4
  obtain ⟨rfl, b5⟩ := takeN_some e5
  have hc := MessageType.code_of_ofCode e6
  refine ⟨?_, ?_⟩
  · simp only [Message.serializeShort, hc, asSecs, fromSecs, List.append_assoc]
    rw [show pl.length + 9 = size by omega, Nat.mul_div_cancel _ (by decide)]
  · intro hp
    simp only at hp b5
    rw [hp] at b5; simp only [List.length_nil] at b5; omega

/-- C16, empty payload: a message without payload is emitted but never accepted. -/
theorem C16_short_header_empty_payload_rejected (m : Message) (r : Bytes) (h : m.payload = []) :
    Message.parseShort (m.serializeShort ++ r) = none := by
  simp [Message.parseShort, Message.serializeShort, h]

example : Message.parseShort
    ((Message.mk .deliveryStatus 77 5500000000 [1, 2, 3]).serializeShort ++ [9])
      = some (⟨.deliveryStatus, 77, 5000000000, [1, 2, 3]⟩, [9]) := by decide +kernel

/-! ## C17: standard header -/

/-- C17: the same for the standard header, with millisecond expiration; `sha` is any hash that yields at least
one byte (the code sends its first byte as a checksum). -/
theorem C17_standard_header_roundtrip (sha : Bytes → Bytes) (hsha : ∀ b, 0 < (sha b).length)
    (m : Message) (r : Bytes) (hid : m.id < 2 ^ 32) (hexp : m.expiration / 1000000 < 2 ^ 64)
    (hne : m.payload ≠ []) (hlen : m.payload.length ≤ 65535) :
    Message.parseStandard (m.serializeStandard sha ++ r)
      = some ({ m with expiration := m.expiration / 1000000 * 1000000 }, r) := by
  have h0 : m.payload.length % 256 ^ 2 = m.payload.length := Nat.mod_eq_of_lt (by omega)
  have h1 : m.type.code % 256 ^ 1 = m.type.code := Nat.mod_eq_of_lt (by simpa using m.type.code_lt)
  have h2 : m.id % 256 ^ 4 = m.id := Nat.mod_eq_of_lt (by omega)
  have h3 : asMillis m.expiration % 256 ^ 8 = asMillis m.expiration :=
    Nat.mod_eq_of_lt (by unfold asMillis; omega)
  have hl : ((sha m.payload).take 1).length = 1 := by
    have := hsha m.payload; simp; omega
  have h4 : beU 1 ((sha m.payload).take 1 ++ (m.payload ++ r))
      = some (unbe ((sha m.payload).take 1), m.payload ++ r) := beU_append hl _
  have h5 : m.payload.isEmpty = false := by simp [hne]
  simp only [Message.parseStandard, Message.serializeStandard, List.append_assoc, beU_be, bind_some_pair,
    h0, h1, h2, h3, h4, h5, takeN_append (Eq.refl m.payload.length), MessageType.ofCode_code,
    Bool.false_eq_true, if_false]
  rfl

/-- C17, converse: what the standard parser accepts is the standard form of the returned message, up to the
checksum byte `c`, which the code ignores. -/
theorem C17_standard_header_parse_exact {input r : Bytes} {m : Message}
    (h : Message.parseStandard input = some (m, r)) :
    (∃ c : UInt8, input = m.serializeStandard (fun _ => [c]) ++ r) ∧ m.payload ≠ [] := by
  simp only [Message.parseStandard] at h
  obtain ⟨⟨ty, r1⟩, e1, h⟩ := Option.bind_eq_some_iff.mp h
  obtain ⟨⟨id, r2⟩, e2, h⟩ := Option.bind_eq_some_iff.mp h
  obtain ⟨⟨exp, r3⟩, e3, h⟩ := Option.bind_eq_some_iff.mp h
  obtain ⟨⟨size, r4⟩, e4, h⟩ := Option.bind_eq_some_iff.mp h
  obtain ⟨⟨c, r5⟩, e5, h⟩ := Option.bind_eq_some_iff.mp h
  obtain ⟨⟨pl, r6⟩, e6, h⟩ := Option.bind_eq_some_iff.mp h
  simp only at h e2 e3 e4 e5 e6
  split at h
  · cases h
  rename_i hs
  obtain ⟨t, e7, h⟩ := Option.bind_eq_some_iff.mp h
  simp only [Option.pure_def, Option.some.injEq, Prod.mk.injEq] at h
  obtain ⟨rfl, rfl⟩ := h
  obtain ⟨rfl, b1⟩ := beU_some e1
  obtain ⟨rfl, b2⟩ := beU_some e2
  obtain ⟨rfl, b3⟩ := beU_some e3
  obtain ⟨rfl, b4⟩ := beU_some e4
  obtain ⟨rfl, b5⟩ := beU_some e5
  obtain ⟨rfl, b6⟩ := takeN_some e6
  have hc := MessageType.code_of_ofCode e7
  refine ⟨⟨UInt8.ofNat c, ?_⟩, ?_⟩
  · simp only [Message.serializeStandard, hc, asMillis, fromMillis, List.append_assoc]
    rw [b6, Nat.mul_div_cancel _ (by decide)]
    simp [be]
  · intro hp; simp only at hp; simp [hp] at hs

example : Message.parseStandard
    ((Message.mk .garlic 77 5500000000 [1, 2, 3]).serializeStandard (fun b => b.map (· + 1)) ++ [9])
      = some (⟨.garlic, 77, 5500000000, [1, 2, 3]⟩, [9]) := by decide +kernel

/-! ## C18: size truncation -/

/-- C18 is violated: for every payload of more than 65526 bytes the short form carries a size field that wraps, and
no parse of the emitted bytes (followed by anything) returns that payload. -/
theorem C18_short_header_size_wraps_violated (m : Message) (r : Bytes) (h : 65526 < m.payload.length) :
    ∀ m' r', Message.parseShort (m.serializeShort ++ r) = some (m', r') →
      m'.payload.length < m.payload.length := by
  intro m' r' hp
  have := (C16_short_header_parse_exact hp).1
  simp only [Message.serializeShort, List.append_assoc] at this
  have h1 := congrArg (beU 2) this
  simp only [beU_be, Option.some.injEq, Prod.mk.injEq] at h1
  have h2 := Nat.mod_lt (m'.payload.length + 9) (show 0 < 256 ^ 2 by decide)
  have hsz : m'.payload.length + 9 < 256 ^ 2 := by
    simp only [Message.parseShort] at hp
    obtain ⟨⟨size, r1⟩, e1, hp⟩ := Option.bind_eq_some_iff.mp hp
    obtain ⟨⟨ty, r2⟩, e2, hp⟩ := Option.bind_eq_some_iff.mp hp
    obtain ⟨⟨id, r3⟩, e3, hp⟩ := Option.bind_eq_some_iff.mp hp
    obtain ⟨⟨exp, r4⟩, e4, hp⟩ := Option.bind_eq_some_iff.mp hp
    simp only at hp
    split at hp
    · cases hp
    obtain ⟨⟨pl, r5⟩, e5, hp⟩ := Option.bind_eq_some_iff.mp hp
    obtain ⟨t, e6, hp⟩ := Option.bind_eq_some_iff.mp hp
    simp only [Option.pure_def, Option.some.injEq, Prod.mk.injEq] at hp
    obtain ⟨rfl, rfl⟩ := hp
    have := (beU_some e1).2
    have := (takeN_some e5).2
    simp only at *; omega
  omega

/-- C18, standard header: more than 65535 payload bytes wrap as well. -/
theorem C18_standard_header_size_wraps_violated (sha : Bytes → Bytes) (m : Message) (r : Bytes)
    (h : 65535 < m.payload.length) :
    ∀ m' r', Message.parseStandard (m.serializeStandard sha ++ r) = some (m', r') →
      m'.payload.length < m.payload.length := by
  intro m' r' hp
  simp only [Message.parseStandard] at hp
  obtain ⟨⟨ty, r1⟩, e1, hp⟩ := Option.bind_eq_some_iff.mp hp
  obtain ⟨⟨id, r2⟩, e2, hp⟩ := Option.bind_eq_some_iff.mp hp
  obtain ⟨⟨exp, r3⟩, e3, hp⟩ := Option.bind_eq_some_iff.mp hp
  obtain ⟨⟨size, r4⟩, e4, hp⟩ := Option.bind_eq_some_iff.mp hp
  obtain ⟨⟨c, r5⟩, e5, hp⟩ := Option.bind_eq_some_iff.mp hp
  obtain ⟨⟨pl, r6⟩, e6, hp⟩ := Option.bind_eq_some_iff.mp hp
  simp only at hp
  split at hp
  · cases hp
  obtain ⟨t, e7, hp⟩ := Option.bind_eq_some_iff.mp hp
  simp only [Option.pure_def, Option.some.injEq, Prod.mk.injEq] at hp
  obtain ⟨rfl, rfl⟩ := hp
  have := (beU_some e4).2
  have := (takeN_some e6).2
  simp only at *; omega

/-- C18, the part that holds: up to the limit the size field on the wire is the real size. -/
theorem C18_size_field_exact_up_to_limit_partial (m : Message) (h : m.payload.length ≤ 65526) :
    beU 2 m.serializeShort = some (m.payload.length + 9, m.serializeShort.drop 2)
      ∧ m.serializeShort.length = m.serializedLenShort := by
  have h0 : (m.payload.length + 9) % 256 ^ 2 = m.payload.length + 9 := Nat.mod_eq_of_lt (by omega)
  refine ⟨?_, ?_⟩
  · simp only [Message.serializeShort, List.append_assoc, beU_be, h0, Option.some.injEq, Prod.mk.injEq,
      true_and]
    rw [List.drop_left' (by simp)]
  · simp [Message.serializeShort, Message.serializedLenShort]; omega

/-- A 65,536-byte payload is a concrete violation: its short form announces 9 bytes and is rejected. -/
example : Message.parseShort ((Message.mk .data 1 0 (List.replicate 65536 7)).serializeShort) = none := by
  simp only [Message.parseShort, Message.serializeShort, List.append_assoc, beU_be, bind_some_pair,
    List.length_replicate]
  simp

/-! ## C19 -/

/-- C19, tunnel gateway. -/
theorem C19_tunnel_gateway_roundtrip (m : TunnelGateway) (r : Bytes)
    (hid : m.tunnelId < 2 ^ 32) (hlen : m.payload.length < 2 ^ 16) :
    TunnelGateway.parse (m.serialize ++ r) = some (m, r) := by
  have h0 : m.payload.length % 256 ^ 2 = m.payload.length := Nat.mod_eq_of_lt (by omega)
  have h2 : m.tunnelId % 256 ^ 4 = m.tunnelId := Nat.mod_eq_of_lt (by omega)
  simp only [TunnelGateway.parse, TunnelGateway.serialize, List.append_assoc, beU_be, bind_some_pair, h0, h2,
    takeN_append (Eq.refl m.payload.length)]
  rfl

/-- C19, delivery status: the timestamp is kept to the millisecond. -/
theorem C19_delivery_status_roundtrip (m : DeliveryStatus) (r : Bytes)
    (hid : m.messageId < 2 ^ 32) (hts : m.timestamp / 1000000 < 2 ^ 64) :
    DeliveryStatus.parse (m.serialize ++ r)
      = some ({ m with timestamp := m.timestamp / 1000000 * 1000000 }, r) := by
  have h2 : m.messageId % 256 ^ 4 = m.messageId := Nat.mod_eq_of_lt (by omega)
  have h3 : asMillis m.timestamp % 256 ^ 8 = asMillis m.timestamp :=
    Nat.mod_eq_of_lt (by unfold asMillis; omega)
  simp only [DeliveryStatus.parse, DeliveryStatus.serialize, List.append_assoc, beU_be, bind_some_pair, h2, h3]
  rfl

theorem takeHashes_flatten (hs : List Bytes) (r : Bytes) (h : ∀ x ∈ hs, x.length = 32) :
    takeHashes hs.length (hs.flatten ++ r) = some (hs, r) := by
  induction hs with
  | nil => rfl
  | cons x t ih =>
    have hx := h x (by simp)
    simp only [List.length_cons, List.flatten_cons, takeHashes, List.append_assoc, takeN_append hx,
      bind_some_pair, ih (fun y hy => h y (List.mem_cons_of_mem _ hy))]
    rfl

theorem takeHashes_some {n : Nat} {i r : Bytes} {hs : List Bytes} (h : takeHashes n i = some (hs, r)) :
    i = hs.flatten ++ r ∧ hs.length = n ∧ ∀ x ∈ hs, x.length = 32 := by
  induction n generalizing i hs with
  | zero =>
    simp only [takeHashes, Option.some.injEq, Prod.mk.injEq] at h
    obtain ⟨rfl, rfl⟩ := h; simp
  | succ n ih =>
    simp only [takeHashes] at h
    obtain ⟨⟨x, r1⟩, e1, h⟩ := Option.bind_eq_some_iff.mp h
    obtain ⟨⟨t, r2⟩, e2, h⟩ := Option.bind_eq_some_iff.mp h
    simp only [Option.pure_def, Option.some.injEq, Prod.mk.injEq] at h
    obtain ⟨rfl, rfl⟩ := h
    obtain ⟨rfl, hx⟩ := takeN_some e1
    obtain ⟨h1, h2, h3⟩ := ih e2
    simp only at h1
    refine ⟨by simp [h1], by simp [h2], ?_⟩
    intro y hy
    rcases List.mem_cons.mp hy with rfl | hy
    · exact hx
    · exact h3 y hy

/-- C19, database search reply with at most 255 routers. -/
theorem C19_search_reply_roundtrip (m : SearchReply) (r : Bytes) (hk : m.key.length = 32)
    (hs : m.sender.length = 32) (hr : ∀ x ∈ m.routers, x.length = 32) (hn : m.routers.length ≤ 255) :
    SearchReply.parse (m.serialize ++ r) = some (m, r) := by
  have h0 : m.routers.length % 256 ^ 1 = m.routers.length := Nat.mod_eq_of_lt (by omega)
  simp only [SearchReply.parse, SearchReply.serialize, List.append_assoc, takeN_append hk, beU_be,
    bind_some_pair, h0, takeHashes_flatten _ _ hr, takeN_append hs]
  rfl

/-- C19, search reply converse: whatever is accepted is the wire image of the returned reply. -/
theorem C19_search_reply_parse_exact {i r : Bytes} {m : SearchReply} (h : SearchReply.parse i = some (m, r)) :
    i = m.serialize ++ r := by
  simp only [SearchReply.parse] at h
  obtain ⟨⟨k, r1⟩, e1, h⟩ := Option.bind_eq_some_iff.mp h
  obtain ⟨⟨n, r2⟩, e2, h⟩ := Option.bind_eq_some_iff.mp h
  obtain ⟨⟨hs, r3⟩, e3, h⟩ := Option.bind_eq_some_iff.mp h
  obtain ⟨⟨s, r4⟩, e4, h⟩ := Option.bind_eq_some_iff.mp h
  simp only [Option.pure_def, Option.some.injEq, Prod.mk.injEq] at h
  obtain ⟨rfl, rfl⟩ := h
  obtain ⟨rfl, _⟩ := takeN_some e1
  obtain ⟨rfl, _⟩ := beU_some e2
  obtain ⟨rfl, hl, _⟩ := takeHashes_some e3
  obtain ⟨rfl, _⟩ := takeN_some e4
  simp [SearchReply.serialize, hl]

example : SearchReply.parse
    ((SearchReply.mk (List.replicate 32 1) (List.replicate 32 2)
      [List.replicate 32 3, List.replicate 32 4]).serialize ++ [5])
    = some (⟨List.replicate 32 1, List.replicate 32 2, [List.replicate 32 3, List.replicate 32 4]⟩, [5]) := by
  decide +kernel
example : TunnelGateway.parse ((TunnelGateway.mk 5 [1, 2, 3]).serialize ++ [4]) = some (⟨5, [1, 2, 3]⟩, [4]) := by
  decide +kernel
example : DeliveryStatus.parse ((DeliveryStatus.mk 5 1999999).serialize ++ [4]) = some (⟨5, 1000000⟩, [4]) := by
  decide +kernel

/-! ## C20 -/

/-- A lookup value that can occur: 32-byte hashes, 32-bit tunnel id, at most 512 excluded routers. -/
def DatabaseLookup.WellFormed (m : DatabaseLookup) : Prop :=
  m.key.length = 32 ∧ m.ignore.length ≤ 512 ∧ (∀ x ∈ m.ignore, x.length = 32) ∧
    match m.reply with
    | .tunnel tid h => tid < 2 ^ 32 ∧ h.length = 32
    | .router h => h.length = 32

/-- C20: a database lookup is parsed back unchanged. -/
theorem C20_database_lookup_roundtrip (m : DatabaseLookup) (r : Bytes) (h : m.WellFormed) :
    DatabaseLookup.parse (m.serialize ++ r) = some (m, r) := by
  obtain ⟨ign, key, lk, rep⟩ := m
  obtain ⟨hk, hn, hi, hr⟩ := h
  simp only at hk hn hi hr
  have h0 : ign.length % 256 ^ 2 = ign.length := Nat.mod_eq_of_lt (by omega)
  have hn' : ¬ (ign.length > maxRoutersToIgnore) := by simp only [maxRoutersToIgnore]; omega
  cases rep with
  | tunnel tid hash =>
    obtain ⟨ht, hh⟩ := hr
    have h2 : tid % 256 ^ 4 = tid := Nat.mod_eq_of_lt (by omega)
    simp only [DatabaseLookup.parse, DatabaseLookup.serialize, List.append_assoc, takeN_append hk,
      takeN_append hh, bind_some_pair, beU_be, h0, h2]
    cases lk <;>
      simp [LookupType.code, LookupType.ofFlag, LookupReply.parse, h2, h0, hn', takeHashes_flatten _ _ hi]
  | router hash =>
    simp only at hr
    simp only [DatabaseLookup.parse, DatabaseLookup.serialize, List.append_assoc, takeN_append hk,
      takeN_append hr, bind_some_pair, beU_be, h0]
    cases lk <;>
      simp [LookupType.code, LookupType.ofFlag, LookupReply.parse, h0, hn', takeHashes_flatten _ _ hi]

/-- C20, limit: a lookup announcing more than 512 excluded routers is refused, whatever follows. -/
theorem C20_database_lookup_too_many_excluded (key hash : Bytes) (flag n : Nat) (r : Bytes)
    (hk : key.length = 32) (hh : hash.length = 32) (hf : flag < 256) (hflag : flag % 2 = 0)
    (hn : 512 < n) (hn' : n < 2 ^ 16) :
    DatabaseLookup.parse (key ++ hash ++ be 1 flag ++ be 2 n ++ r) = none := by
  have h1 : flag % 256 ^ 1 = flag := Nat.mod_eq_of_lt (by omega)
  have h2 : n % 256 ^ 2 = n := Nat.mod_eq_of_lt (by omega)
  simp only [DatabaseLookup.parse, List.append_assoc, takeN_append hk, takeN_append hh, bind_some_pair,
    beU_be, h1]
  cases hl : LookupType.ofFlag flag with
  | none => rfl
  | some l =>
    have : ¬ (flag % 2 = 1) := by omega
    simp [LookupReply.parse, this, h2, maxRoutersToIgnore, hn]

example : (DatabaseLookup.mk [List.replicate 32 7, List.replicate 32 8] (List.replicate 32 1) .exploration
    (.tunnel 5 (List.replicate 32 9))).WellFormed := by
  simp [DatabaseLookup.WellFormed]

/-! ## C21 -/

/-- A reply route that the wire format can express: token and tunnel id are not zero and hashes are 32 bytes. -/
def StoreReply.WellFormed : StoreReply → Prop
  | .tunnel token tid h => 0 < token ∧ token < 2 ^ 32 ∧ 0 < tid ∧ tid < 2 ^ 32 ∧ h.length = 32
  | .router token h => 0 < token ∧ token < 2 ^ 32 ∧ h.length = 32
  | .none => True

theorem StoreReply.parse_serialize (rep : StoreReply) (h : rep.WellFormed) (r : Bytes) :
    (do let (token, rest) ← beU 4 (rep.serialize ++ r); StoreReply.parse token rest) = some (rep, r) := by
  cases rep with
  | none => simp [StoreReply.serialize, StoreReply.parse]
  | tunnel token tid hash =>
    obtain ⟨h1, h2, h3, h4, h5⟩ := h
    have e1 : token % 256 ^ 4 = token := Nat.mod_eq_of_lt (by omega)
    have e2 : tid % 256 ^ 4 = tid := Nat.mod_eq_of_lt (by omega)
    simp only [StoreReply.serialize, List.append_assoc, beU_be, bind_some_pair, StoreReply.parse, e1, e2,
      takeN_append h5, show token ≠ 0 by omega, show tid ≠ 0 by omega, if_false]
    rfl
  | router token hash =>
    obtain ⟨h1, h2, h5⟩ := h
    have e1 : token % 256 ^ 4 = token := Nat.mod_eq_of_lt (by omega)
    simp only [StoreReply.serialize, List.append_assoc, beU_be, bind_some_pair, StoreReply.parse, e1,
      takeN_append h5, show token ≠ 0 by omega, if_false]
    rfl

/-- C21, router info: the stored key, reply route and (compressed) payload come back. -/
theorem C21_store_router_info_roundtrip {RI LS : Type} (riParse : Bytes → Option RI) (lsParse : Parser LS)
    (key data : Bytes) (ri : RI) (rep : StoreReply) (r : Bytes) (hk : key.length = 32) (hrep : rep.WellFormed)
    (hd : data.length < 2 ^ 16) (hri : riParse data = some ri) :
    DatabaseStore.parse riParse lsParse (storeBuild key (.routerInfo data) rep ++ r)
      = some ({ key := key, payload := .routerInfo ri, reply := rep }, r) := by
  have h0 : data.length % 256 ^ 2 = data.length := Nat.mod_eq_of_lt (by omega)
  have hp := StoreReply.parse_serialize rep hrep (be 2 data.length ++ (data ++ r))
  obtain ⟨⟨token, r1⟩, e1, e2⟩ := Option.bind_eq_some_iff.mp hp
  simp only at e2
  simp only [DatabaseStore.parse, storeBuild, List.append_assoc, takeN_append hk, bind_some_pair, beU_be, e1]
  simp only [StoreType.code, StoreType.ofByte, Nat.zero_mod, if_true, bind_some_val, e2, bind_some_pair, beU_be,
    h0, takeN_append (Eq.refl data.length), hri]
  rfl

/-- C21, lease set. -/
theorem C21_store_lease_set_roundtrip {RI LS : Type} (riParse : Bytes → Option RI) (lsParse : Parser LS)
    (key data : Bytes) (ls : LS) (rep : StoreReply) (r : Bytes) (hk : key.length = 32) (hrep : rep.WellFormed)
    (hls : lsParse (data ++ r) = some (ls, r)) :
    DatabaseStore.parse riParse lsParse (storeBuild key (.leaseSet2 data) rep ++ r)
      = some ({ key := key, payload := .leaseSet2 ls, reply := rep }, r) := by
  have hp := StoreReply.parse_serialize rep hrep (data ++ r)
  obtain ⟨⟨token, r1⟩, e1, e2⟩ := Option.bind_eq_some_iff.mp hp
  simp only at e2
  simp only [DatabaseStore.parse, storeBuild, List.append_assoc, takeN_append hk, bind_some_pair, beU_be, e1]
  have : StoreType.ofByte (StoreType.leaseSet2.code % 256 ^ 1) = some .leaseSet2 := by decide
  simp only [this, bind_some_val, e2, bind_some_pair, hls]
  rfl

theorem skipReply_of_parse {token : Nat} {rest r : Bytes} {rep : StoreReply}
    (h : StoreReply.parse token rest = some (rep, r)) : skipReply token rest = some r := by
  unfold StoreReply.parse at h
  unfold skipReply
  split at h
  · rename_i h0; simp only [Option.some.injEq, Prod.mk.injEq] at h; simp [h0, h.2]
  · rename_i h0
    obtain ⟨⟨tid, r1⟩, e1, h⟩ := Option.bind_eq_some_iff.mp h
    obtain ⟨⟨hs, r2⟩, e2, h⟩ := Option.bind_eq_some_iff.mp h
    simp only at h e2
    simp only [h0, if_false, e1, bind_some_pair, e2]
    split at h <;> simp only [Option.pure_def, Option.some.injEq, Prod.mk.injEq] at h <;> simp [h.2]

/-- C21, raw payload: for every store message that was accepted, extracting the raw payload (done when the message
is flooded on) does not panic, and for a router info it returns exactly the bytes that were parsed. -/
theorem C21_extract_raw_router_info {RI LS : Type} (riParse : Bytes → Option RI) (lsParse : Parser LS)
    {i r : Bytes} {key : Bytes} {ri : RI} {rep : StoreReply}
    (h : DatabaseStore.parse riParse lsParse i = some ({ key := key, payload := .routerInfo ri, reply := rep }, r)) :
    ∃ data pre, extractRaw true i = some data ∧ riParse data = some ri ∧
      i = pre ++ be 2 data.length ++ data ++ r := by
  simp only [DatabaseStore.parse] at h
  obtain ⟨⟨k, r1⟩, e1, h⟩ := Option.bind_eq_some_iff.mp h
  obtain ⟨⟨b, r2⟩, e2, h⟩ := Option.bind_eq_some_iff.mp h
  obtain ⟨⟨token, r3⟩, e3, h⟩ := Option.bind_eq_some_iff.mp h
  obtain ⟨ty, e4, h⟩ := Option.bind_eq_some_iff.mp h
  obtain ⟨⟨rp, r5⟩, e5, h⟩ := Option.bind_eq_some_iff.mp h
  simp only at h e2 e3 e4 e5
  split at h
  · obtain ⟨⟨sz, r6⟩, e6, h⟩ := Option.bind_eq_some_iff.mp h
    obtain ⟨⟨data, r7⟩, e7, h⟩ := Option.bind_eq_some_iff.mp h
    obtain ⟨x, e8, h⟩ := Option.bind_eq_some_iff.mp h
    simp only [Option.pure_def, Option.some.injEq, Prod.mk.injEq, DatabaseStore.mk.injEq,
      StorePayload.routerInfo.injEq] at h
    obtain ⟨⟨rfl, rfl, rfl⟩, rfl⟩ := h
    simp only at e6 e7 e8
    have hskip := skipReply_of_parse e5
    obtain ⟨t, ht⟩ : ∃ t, r3 = t ++ r5 := by
      unfold StoreReply.parse at e5
      split at e5
      · simp only [Option.some.injEq, Prod.mk.injEq] at e5; exact ⟨[], by simp [e5.2]⟩
      · obtain ⟨⟨tid, q1⟩, f1, e5⟩ := Option.bind_eq_some_iff.mp e5
        obtain ⟨⟨hs, q2⟩, f2, e5⟩ := Option.bind_eq_some_iff.mp e5
        simp only at f2 e5
        have := (beU_some f1).1; have := (takeN_some f2).1
        have hq : q2 = r5 := by
          split at e5 <;> simp only [Option.pure_def, Option.some.injEq, Prod.mk.injEq] at e5 <;> exact e5.2
        exact ⟨be 4 tid ++ hs, by simp_all⟩
    refine ⟨data, k ++ be 1 b ++ be 4 token ++ t, ?_, e8, ?_⟩
    · simp only [extractRaw, e1, bind_some_pair, e2, e3, hskip, bind_some_val, e6, e7, if_true]; rfl
    · have a1 := (takeN_some e1).1; have a2 := (beU_some e2).1; have a3 := (beU_some e3).1
      have a6 := (beU_some e6).1; have a7 := takeN_some e7
      subst a1 a2 a3 ht a6
      rw [a7.2]
      simp [a7.1]
  · obtain ⟨⟨ls, r6⟩, e6, h⟩ := Option.bind_eq_some_iff.mp h
    simp [Option.pure_def] at h
  · cases h

/-- C21, raw payload of a lease set: everything from the first byte handed to the lease set parser on. -/
theorem C21_extract_raw_lease_set {RI LS : Type} (riParse : Bytes → Option RI) (lsParse : Parser LS)
    {i r : Bytes} {key : Bytes} {ls : LS} {rep : StoreReply}
    (h : DatabaseStore.parse riParse lsParse i = some ({ key := key, payload := .leaseSet2 ls, reply := rep }, r)) :
    ∃ data, extractRaw false i = some data ∧ lsParse data = some (ls, r) := by
  simp only [DatabaseStore.parse] at h
  obtain ⟨⟨k, r1⟩, e1, h⟩ := Option.bind_eq_some_iff.mp h
  obtain ⟨⟨b, r2⟩, e2, h⟩ := Option.bind_eq_some_iff.mp h
  obtain ⟨⟨token, r3⟩, e3, h⟩ := Option.bind_eq_some_iff.mp h
  obtain ⟨ty, e4, h⟩ := Option.bind_eq_some_iff.mp h
  obtain ⟨⟨rp, r5⟩, e5, h⟩ := Option.bind_eq_some_iff.mp h
  simp only at h e2 e3 e4 e5
  split at h
  · obtain ⟨⟨sz, r6⟩, e6, h⟩ := Option.bind_eq_some_iff.mp h
    obtain ⟨⟨data, r7⟩, e7, h⟩ := Option.bind_eq_some_iff.mp h
    obtain ⟨x, e8, h⟩ := Option.bind_eq_some_iff.mp h
    simp [Option.pure_def] at h
  · obtain ⟨⟨l, r6⟩, e6, h⟩ := Option.bind_eq_some_iff.mp h
    simp only [Option.pure_def, Option.some.injEq, Prod.mk.injEq, DatabaseStore.mk.injEq,
      StorePayload.leaseSet2.injEq] at h
    obtain ⟨⟨rfl, rfl, rfl⟩, rfl⟩ := h
    refine ⟨r5, ?_, e6⟩
    simp only [extractRaw, e1, bind_some_pair, e2, e3, skipReply_of_parse e5, bind_some_val]; rfl
  · cases h

example : (DatabaseStore.parse (fun b => some b) (fun b => some (b.length, ([] : Bytes)))
    (storeBuild (List.replicate 32 1) (.routerInfo [1, 2, 3]) (.tunnel 7 8 (List.replicate 32 2)) ++ [4]))
    = some (⟨List.replicate 32 1, .routerInfo [1, 2, 3], .tunnel 7 8 (List.replicate 32 2)⟩, [4]) := by
  decide +kernel
example : (StoreReply.tunnel 7 8 (List.replicate 32 2)).WellFormed := by simp [StoreReply.WellFormed]

end Emissary.I2np
