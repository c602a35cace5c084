import Verif.Props.I2np
import Verif.Props.Garlic
import Verif.Props.TunnelData
import Verif.Props.BuildRecord
import Verif.Props.StreamPacket
import Verif.Props.Datagram
/-!
# C274: messages have the layout of the specifications
-/
namespace Emissary.Wire
open Emissary Emissary.I2np

/-! ## Specification: fields, and the layouts of the I2P specifications -/

/-- A field: a number in `bytes` bytes, most significant first, or bytes as they are. -/
inductive Field where
  | num (bytes value : Nat)
  | raw (data : Bytes)

/-- The bytes of a field. -/
def Field.bytes : Field → Bytes
  | .num k n => (List.range k).map fun i => UInt8.ofNat (n / 256 ^ (k - 1 - i))
  | .raw d => d

/-- Fields one after the other. -/
def layout (fs : List Field) : Bytes := (fs.map Field.bytes).flatten

open Field

/-- I2NP: the numbers of the message types. -/
def typeNumber : MessageType → Nat
  | .databaseStore => 1 | .databaseLookup => 2 | .databaseSearchReply => 3 | .deliveryStatus => 10 | .garlic => 11 | .tunnelData => 18
  | .tunnelGateway => 19 | .data => 20 | .tunnelBuild => 21 | .tunnelBuildReply => 22 | .variableTunnelBuild => 23
  | .variableTunnelBuildReply => 24 | .shortTunnelBuild => 25 | .outboundTunnelBuildReply => 26

/-- I2NP: the header of 16 bytes; `ms` is the expiration in milliseconds, `sum` the first byte of the hash of the payload. -/
def longMessage (t : MessageType) (id ms : Nat) (sum : UInt8) (payload : Bytes) : List Field :=
  [num 1 (typeNumber t), num 4 id, num 8 ms, num 2 payload.length, raw [sum], raw payload]

/-- I2NP: the header of 9 bytes after the length of the block, with the expiration in seconds. -/
def shortMessage (t : MessageType) (id secs : Nat) (payload : Bytes) : List Field :=
  [num 2 (9 + payload.length), num 1 (typeNumber t), num 4 id, num 4 secs, raw payload]

/-- I2NP: TunnelGateway. -/
def gatewayMessage (tunnel : Nat) (data : Bytes) : List Field := [num 4 tunnel, num 2 data.length, raw data]

/-- I2NP: DeliveryStatus. -/
def statusMessage (id ms : Nat) : List Field := [num 4 id, num 8 ms]

/-- I2NP: DatabaseSearchReply. -/
def searchReplyMessage (key : Bytes) (peers : List Bytes) (sender : Bytes) : List Field :=
  raw key :: num 1 peers.length :: (peers.map raw ++ [raw sender])

/-- I2NP: what is looked up, bits 3 and 2 of the flags. -/
def lookupBits : LookupType → Nat
  | .normal => 0 | .leaseSet => 1 | .router => 2 | .exploration => 3

/-- I2NP: DatabaseLookup without encryption of the reply. Bit 0: the reply goes to a tunnel. -/
def lookupMessage (key sender : Bytes) (tunnel : Option Nat) (kind : LookupType) (excluded : List Bytes) : List Field :=
  [raw key, raw sender, num 1 (4 * lookupBits kind + if tunnel.isSome then 1 else 0)] ++ (tunnel.map (num 4)).toList ++
    num 2 excluded.length :: excluded.map raw

/-- I2NP: DatabaseLookup with bit 4 (ECIES) or bit 1 (ElGamal) set: the key of the reply and its tags follow. -/
def encryptedLookup (key sender : Bytes) (tunnel : Option Nat) (kind : LookupType) (excluded : List Bytes) (ecies : Bool) (replyKey : Bytes)
    (tags : List Bytes) : List Field :=
  [raw key, raw sender, num 1 ((if ecies then 16 else 2) + 4 * lookupBits kind + if tunnel.isSome then 1 else 0)] ++ (tunnel.map (num 4)).toList ++
    num 2 excluded.length :: excluded.map raw ++ [raw replyKey, num 1 tags.length] ++ tags.map raw

/-- I2NP: DatabaseStore, up to what is stored: with a token of zero no reply is wanted, and a tunnel of zero asks for it directly. -/
def storeHead (key : Bytes) (kind token tunnel : Nat) (gateway : Bytes) : List Field :=
  [raw key, num 1 kind, num 4 token] ++ if token = 0 then [] else [num 4 tunnel, raw gateway]

/-- I2NP: roles in a build record: bit 7 for the inbound gateway, bit 6 for the outbound endpoint. -/
def roleFlag : HopRole → Nat
  | .inboundGateway => 2 ^ 7 | .outboundEndpoint => 2 ^ 6 | .participant => 0

/-- I2NP: the cleartext of a short build request record. -/
def shortRecord (tunnel nextTunnel : Nat) (next : Bytes) (role : HopRole) (minutes secs nextMessage : Nat) (options padding : Bytes) : List Field :=
  [num 4 tunnel, num 4 nextTunnel, raw next, num 1 (roleFlag role), num 2 0, num 1 0, num 4 minutes, num 4 secs, num 4 nextMessage,
    num 2 options.length, raw options, raw padding]

/-- Tunnel messages: where a message goes, bits 6 and 5 of the flag. -/
def deliveryBits : Tunnel.DI → Nat
  | .loc => 0 | .tunnel .. => 1 | .router _ => 2

/-- Tunnel messages: the fields for the delivery. -/
def deliveryFields : Tunnel.DI → List Field
  | .loc => [] | .tunnel id h => [num 4 id, raw h] | .router h => [raw h]

/-- Tunnel messages: a message or a fragment of one with its delivery instructions. Bit 7: a follow-on fragment, with its number in bits 6-1 and
the mark of the last one in bit 0; bit 3: the first fragment. -/
def fragment : Tunnel.Kind → Bytes → List Field
  | .unfragmented d, m => num 1 (2 ^ 5 * deliveryBits d) :: deliveryFields d ++ [num 2 m.length, raw m]
  | .first id d, m => num 1 (2 ^ 5 * deliveryBits d + 2 ^ 3) :: deliveryFields d ++ [num 4 id, num 2 m.length, raw m]
  | .middle id n, m => [num 1 (2 ^ 7 + 2 * n), num 4 id, num 2 m.length, raw m]
  | .last id n, m => [num 1 (2 ^ 7 + 2 * n + 1), num 4 id, num 2 m.length, raw m]

/-- Tunnel messages: the message before it is encrypted: tunnel, IV, checksum, padding without zeros, a zero, the fragments. -/
def tunnelMessage (sha : Bytes → Bytes) (tunnel : Nat) (iv padding : Bytes) (fragments : Bytes) : List Field :=
  [num 4 tunnel, raw iv, raw ((sha (fragments ++ iv)).take 4), raw padding, num 1 0, raw fragments]

/-- ECIES: where a clove goes, bits 6 and 5 of its flag, with the fields. -/
def cloveDelivery : Garlic.Delivery → List Field
  | .localNode => [num 1 0]
  | .destination h => [num 1 (2 ^ 5 * 1), raw h]
  | .router h => [num 1 (2 ^ 5 * 2), raw h]
  | .tunnel h id => [num 1 (2 ^ 5 * 3), raw h, num 4 id]

/-- ECIES: a block is its number, the length of its contents and its contents. -/
def block (n : Nat) (contents : List Field) : List Field := num 1 n :: num 2 (layout contents).length :: contents

/-- ECIES: the blocks that are sent. A next key block has in bit 0 whether there is a key, in bit 1 that it is a reverse key, and in bit 2 the request
for a reverse key. -/
def garlicBlock : Garlic.Block → Option (List Field)
  | .dateTime ts => some (block 0 [num 4 ts])
  | .nextKey (.forward id key req) =>
    some (block 7 ([num 1 ((if key.isSome then 1 else 0) + if req then 4 else 0), num 2 id] ++ (key.map raw).toList))
  | .nextKey (.reverse id key) => some (block 7 ([num 1 ((if key.isSome then 1 else 0) + 2), num 2 id] ++ (key.map raw).toList))
  | .ack l => some (block 8 (l.flatMap fun a => [num 2 a.1, num 2 a.2]))
  | .ackRequest => some (block 9 [num 1 0])
  | .clove t id exp d body => some (block 11 (cloveDelivery d ++ [num 1 (typeNumber t), num 4 id, num 4 (exp / 1000000000), raw body]))
  | .padding p => some (block 254 [raw p])
  | _ => none

/-- Streaming: the number of each flag. -/
def streamFlags (syn close reset sig dest delay mtu echo noAck : Bool) : Nat :=
  (if syn then 2 ^ 0 else 0) + (if close then 2 ^ 1 else 0) + (if reset then 2 ^ 2 else 0) + (if sig then 2 ^ 3 else 0) + (if dest then 2 ^ 5 else 0) +
    (if delay then 2 ^ 6 else 0) + (if mtu then 2 ^ 7 else 0) + (if echo then 2 ^ 9 else 0) + if noAck then 2 ^ 10 else 0

/-- Streaming: the options, in the order of the specification. -/
def streamOptions (delay : Option Nat) (dest : Option Bytes) (mtu : Option Nat) (sig : Option Bytes) : List Field :=
  (delay.map (num 2)).toList ++ (dest.map raw).toList ++ (mtu.map (num 2)).toList ++ (sig.map raw).toList

/-- Streaming: a packet. -/
def streamPacket (send recv seq ack : Nat) (nacks : List Nat) (resend flags : Nat) (options : List Field) (payload : Bytes) : List Field :=
  [num 4 send, num 4 recv, num 4 seq, num 4 ack, num 1 nacks.length] ++ nacks.map (num 4) ++
    [num 1 resend, num 2 flags, num 2 (layout options).length] ++ options ++ [raw payload]

/-- I2CP: the numbers of the protocols. -/
def protocolNumber : Datagram.Protocol → UInt8
  | .streaming => 6 | .datagram => 17 | .anonymous => 18

/-! ## Lemmas -/

theorem num_be (k n : Nat) : (num k n).bytes = be k n := by
  induction k with
  | zero => rfl
  | succ k ih =>
    rw [be, ← ih]
    simp only [Field.bytes, List.range_succ_eq_map, List.map_cons, List.map_map, List.cons.injEq]
    refine ⟨by simp, List.map_congr_left fun i _ => ?_⟩
    simp only [Function.comp]
    rw [show k + 1 - 1 - (i + 1) = k - 1 - i by omega]

@[simp] theorem layout_nil : layout [] = [] := rfl
@[simp] theorem layout_num (k n : Nat) (fs : List Field) : layout (num k n :: fs) = be k n ++ layout fs := by
  rw [layout, List.map_cons, List.flatten_cons, num_be]; rfl
@[simp] theorem layout_raw (d : Bytes) (fs : List Field) : layout (raw d :: fs) = d ++ layout fs := rfl
@[simp] theorem layout_append (a b : List Field) : layout (a ++ b) = layout a ++ layout b := by simp [layout]
@[simp] theorem layout_raws (l : List Bytes) : layout (l.map raw) = l.flatten := by
  induction l with
  | nil => rfl
  | cons a l ih => rw [List.map_cons, layout_raw, ih, List.flatten_cons]
@[simp] theorem layout_nums (k : Nat) (l : List Nat) : layout (l.map (num k)) = (l.map (be k)).flatten := by
  induction l with
  | nil => rfl
  | cons a l ih => rw [List.map_cons, layout_num, ih, List.map_cons, List.flatten_cons]

theorem type_code (t : MessageType) : t.code = typeNumber t := by cases t <;> rfl
theorem role_flag (r : HopRole) : r.code = roleFlag r := by cases r <;> rfl

/-! ## C274 -/

/-- C274: I2NP messages, with the long header as inside tunnels and the short one as on links. The byte of the checksum is not looked at. -/
theorem C274_i2np (sha : Bytes → Bytes) (t : MessageType) (id time : Nat) (payload r : Bytes) (sum : UInt8) :
    (∀ x xs, sha payload = x :: xs → Message.serializeStandard sha ⟨t, id, time, payload⟩ = layout (longMessage t id (time / 1000000) x payload)) ∧
    Message.serializeShort ⟨t, id, time, payload⟩ = layout (shortMessage t id (time / 1000000000) payload) ∧
    (id < 2 ^ 32 → time < 2 ^ 64 → payload ≠ [] → payload.length < 2 ^ 16 →
      Message.parseStandard (layout (longMessage t id time sum payload) ++ r) = some (⟨t, id, time * 1000000, payload⟩, r)) ∧
    (id < 2 ^ 32 → time < 2 ^ 32 → payload ≠ [] → payload.length + 9 < 2 ^ 16 →
      Message.parseShort (layout (shortMessage t id time payload) ++ r) = some (⟨t, id, time * 1000000000, payload⟩, r)) := by
  refine ⟨?_, ?_, ?_, ?_⟩
  · intro x xs hx
    simp [Message.serializeStandard, longMessage, hx, type_code, asMillis]
  · simp [Message.serializeShort, shortMessage, type_code, asSecs, Nat.add_comm]
  · intro hi ht hp hl
    have h := C17_standard_header_roundtrip (fun _ => [sum]) (by simp) ⟨t, id, time * 1000000, payload⟩ r hi (by rwa [Nat.mul_div_cancel _ (by decide)]) hp (by simp only; omega)
    have e : Message.serializeStandard (fun _ => [sum]) ⟨t, id, time * 1000000, payload⟩ = layout (longMessage t id time sum payload) := by
      simp [Message.serializeStandard, longMessage, type_code, asMillis]
    rw [← e, h]; simp
  · intro hi ht hp hl
    have h := C16_short_header_roundtrip ⟨t, id, time * 1000000000, payload⟩ r hi (by rwa [Nat.mul_div_cancel _ (by decide)]) hp (by simp only; omega)
    have e : Message.serializeShort ⟨t, id, time * 1000000000, payload⟩ = layout (shortMessage t id time payload) := by
      simp [Message.serializeShort, shortMessage, type_code, asSecs, Nat.add_comm]
    rw [← e, h]; simp

/-- C274: the messages for gateways, delivery statuses, and the answers of floodfill routers. -/
theorem C274_answers (n ms : Nat) (data key sender : Bytes) (peers : List Bytes) (r : Bytes) :
    TunnelGateway.serialize ⟨n, data⟩ = layout (gatewayMessage n data) ∧
    DeliveryStatus.serialize ⟨n, ms * 1000000⟩ = layout (statusMessage n ms) ∧
    SearchReply.serialize ⟨sender, key, peers⟩ = layout (searchReplyMessage key peers sender) ∧
    (n < 2 ^ 32 → data.length < 2 ^ 16 → TunnelGateway.parse (layout (gatewayMessage n data) ++ r) = some (⟨n, data⟩, r)) ∧
    (n < 2 ^ 32 → ms < 2 ^ 64 → DeliveryStatus.parse (layout (statusMessage n ms) ++ r) = some (⟨n, ms * 1000000⟩, r)) ∧
    (key.length = 32 → sender.length = 32 → (∀ x ∈ peers, x.length = 32) → peers.length < 2 ^ 8 →
      SearchReply.parse (layout (searchReplyMessage key peers sender) ++ r) = some (⟨sender, key, peers⟩, r)) := by
  have e1 : TunnelGateway.serialize ⟨n, data⟩ = layout (gatewayMessage n data) := by simp [TunnelGateway.serialize, gatewayMessage]
  have e2 : DeliveryStatus.serialize ⟨n, ms * 1000000⟩ = layout (statusMessage n ms) := by
    simp [DeliveryStatus.serialize, statusMessage, asMillis]
  have e3 : SearchReply.serialize ⟨sender, key, peers⟩ = layout (searchReplyMessage key peers sender) := by
    simp [SearchReply.serialize, searchReplyMessage]
  refine ⟨e1, e2, e3, ?_, ?_, ?_⟩
  · intro h1 h2
    rw [← e1]; exact C19_tunnel_gateway_roundtrip ⟨n, data⟩ r h1 h2
  · intro h1 h2
    rw [← e2]
    have := C19_delivery_status_roundtrip ⟨n, ms * 1000000⟩ r h1 (by rwa [Nat.mul_div_cancel _ (by decide)])
    rw [this]; simp
  · intro h1 h2 h3 h4
    rw [← e3]; exact C19_search_reply_roundtrip ⟨sender, key, peers⟩ r h1 h2 h3 (by simp only; omega)

/-- The reply route of a lookup. -/
def routeOf (sender : Bytes) : Option Nat → LookupReply
  | some t => .tunnel t sender
  | none => .router sender

/-- C274: lookups whose reply is not to be encrypted. -/
theorem C274_lookups_partial (key sender : Bytes) (tunnel : Option Nat) (kind : LookupType) (excluded : List Bytes) (r : Bytes) :
    DatabaseLookup.serialize ⟨excluded, key, kind, routeOf sender tunnel⟩ = layout (lookupMessage key sender tunnel kind excluded) ∧
    (key.length = 32 → sender.length = 32 → (∀ t, tunnel = some t → t < 2 ^ 32) → (∀ x ∈ excluded, x.length = 32) → excluded.length ≤ 512 →
      DatabaseLookup.parse (layout (lookupMessage key sender tunnel kind excluded) ++ r) =
        some (⟨excluded, key, kind, routeOf sender tunnel⟩, r)) := by
  have e : DatabaseLookup.serialize ⟨excluded, key, kind, routeOf sender tunnel⟩ = layout (lookupMessage key sender tunnel kind excluded) := by
    cases tunnel <;> cases kind <;> simp [DatabaseLookup.serialize, lookupMessage, routeOf, lookupBits, LookupType.code]
  refine ⟨e, ?_⟩
  intro h1 h2 h3 h4 h5
  rw [← e]
  refine C20_database_lookup_roundtrip _ r ⟨h1, h5, h4, ?_⟩
  cases tunnel with
  | none => exact h2
  | some t => exact ⟨h3 t rfl, h2⟩

/-- C274, refuted for lookups that ask for an encrypted reply: none of them is read. -/
theorem C274_encrypted_lookups_violated (key sender : Bytes) (tunnel : Option Nat) (kind : LookupType) (excluded : List Bytes) (ecies : Bool)
    (replyKey : Bytes) (tags : List Bytes) (r : Bytes) (h1 : key.length = 32) (h2 : sender.length = 32) :
    DatabaseLookup.parse (layout (encryptedLookup key sender tunnel kind excluded ecies replyKey tags) ++ r) = none := by
  have hb : (if ecies then 16 else 2) + 4 * lookupBits kind + (if tunnel.isSome then 1 else 0) < 256 := by
    generalize tunnel.isSome = b
    cases ecies <;> cases kind <;> cases b <;> decide
  generalize hf : (if ecies then 16 else 2) + 4 * lookupBits kind + (if tunnel.isSome then 1 else 0) = f at hb
  have hbits : f / 2 % 2 = 1 ∨ f / 16 % 2 = 1 := by
    subst hf
    generalize tunnel.isSome = b
    cases ecies <;> cases kind <;> cases b <;> decide
  have hm : f % 256 ^ 1 = f := Nat.mod_eq_of_lt (by omega)
  simp only [encryptedLookup, hf, List.cons_append, List.nil_append, List.append_assoc, layout_raw, layout_num, layout_append, DatabaseLookup.parse, takeN_append h1,
    takeN_append h2, bind_some_pair, beU_be, hm]
  cases LookupType.ofFlag f with
  | none => rfl
  | some lk =>
    simp only [bind_some_val]
    cases hr : LookupReply.parse f sender (layout (tunnel.map (num 4)).toList ++ (be 2 excluded.length ++ (layout (excluded.map raw) ++ (replyKey ++ (be 1 tags.length ++ (layout (tags.map raw) ++ r)))))) with
    | none => rfl
    | some x =>
      obtain ⟨rep, rest⟩ := x
      simp only [bind_some_pair]
      cases hn : beU 2 rest with
      | none => rfl
      | some y =>
        obtain ⟨n, rest⟩ := y
        simp only [bind_some_pair]
        split
        · rfl
        · cases takeHashes n rest with
          | none => rfl
          | some z => obtain ⟨ign, rest⟩ := z; simp only [bind_some_pair, if_pos hbits]

/-- The reply that is asked for. -/
def wanted (token tunnel : Nat) (gateway : Bytes) : StoreReply :=
  if token = 0 then .none else if tunnel = 0 then .router token gateway else .tunnel token tunnel gateway

/-- C274: stores of router infos (compressed, with their length) and of lease sets of the second version. -/
theorem C274_stores_partial {RI LS : Type} (riParse : Bytes → Option RI) (lsParse : Parser LS) (key data gateway : Bytes) (token tunnel : Nat) (ri : RI) (ls : LS)
    (r : Bytes) (h1 : key.length = 32) (h2 : token < 2 ^ 32) (h3 : tunnel < 2 ^ 32) (h4 : gateway.length = 32) (h5 : data.length < 2 ^ 16) :
    storeBuild key (.routerInfo data) (wanted token tunnel gateway) = layout (storeHead key 0 token tunnel gateway ++ [num 2 data.length, raw data]) ∧
    storeBuild key (.leaseSet2 data) (wanted token tunnel gateway) = layout (storeHead key 3 token tunnel gateway ++ [raw data]) ∧
    (riParse data = some ri → DatabaseStore.parse riParse lsParse (layout (storeHead key 0 token tunnel gateway ++ [num 2 data.length, raw data]) ++ r) =
      some (⟨key, .routerInfo ri, wanted token tunnel gateway⟩, r)) ∧
    (lsParse (data ++ r) = some (ls, r) → DatabaseStore.parse riParse lsParse (layout (storeHead key 3 token tunnel gateway ++ [raw data]) ++ r) =
      some (⟨key, .leaseSet2 ls, wanted token tunnel gateway⟩, r)) := by
  have hw : (wanted token tunnel gateway).serialize = layout (num 4 token :: if token = 0 then [] else [num 4 tunnel, raw gateway]) := by
    unfold wanted
    split
    · rename_i h; subst h; simp [StoreReply.serialize]
    · split
      · rename_i h; subst h; simp [StoreReply.serialize]
      · simp [StoreReply.serialize]
  have hok : (wanted token tunnel gateway).WellFormed := by
    unfold wanted
    split
    · trivial
    · split
      · exact ⟨by omega, h2, h4⟩
      · exact ⟨by omega, h2, by omega, h3, h4⟩
  have e1 : storeBuild key (.routerInfo data) (wanted token tunnel gateway) = layout (storeHead key 0 token tunnel gateway ++ [num 2 data.length, raw data]) := by
    simp [storeBuild, hw, storeHead, StoreType.code]
  have e2 : storeBuild key (.leaseSet2 data) (wanted token tunnel gateway) = layout (storeHead key 3 token tunnel gateway ++ [raw data]) := by
    simp [storeBuild, hw, storeHead, StoreType.code]
  refine ⟨e1, e2, ?_, ?_⟩
  · intro h; rw [← e1]; exact C21_store_router_info_roundtrip riParse lsParse key data ri _ r h1 hok h5 h
  · intro h; rw [← e2]; exact C21_store_lease_set_roundtrip riParse lsParse key data ls _ r h1 hok h

/-- C274: short build records, as made (without options, filled up to 154 bytes) and as read. -/
theorem C274_build_records (E : Prim.Env) (tunnel nextTunnel : Nat) (next : Bytes) (role : HopRole) (minutes secs nextMessage : Nat) (rng : Nat → Bytes)
    (options : List Prim.Mapping) (padding : Bytes)
    (h1 : next.length = 32) (h2 : tunnel < 2 ^ 32) (h3 : nextTunnel < 2 ^ 32) (h4 : nextMessage < 2 ^ 32)
    (ho : ∀ m ∈ options, m.key.length ≤ 255 ∧ m.value.length ≤ 255 ∧ E.utf8 m.key = true ∧ E.utf8 m.value = true)
    (hl : ((options.map Prim.Mapping.serialize).flatten).length < 65536) :
    Build.ShortParams.serialize ⟨tunnel, nextTunnel, next, role, minutes, secs, nextMessage⟩ rng =
      layout (shortRecord tunnel nextTunnel next role minutes secs nextMessage [] (rng 96)) ∧
    Build.ShortRecord.parse E (layout (shortRecord tunnel nextTunnel next role minutes secs nextMessage (options.map Prim.Mapping.serialize).flatten padding)) =
      some ⟨nextMessage, next, nextTunnel, role, tunnel⟩ := by
  refine ⟨?_, ?_⟩
  · simp [Build.ShortParams.serialize, shortRecord, h1, role_flag]
  · have e1 : tunnel % 256 ^ 4 = tunnel := Nat.mod_eq_of_lt (by omega)
    have e2 : nextTunnel % 256 ^ 4 = nextTunnel := Nat.mod_eq_of_lt (by omega)
    have e3 : nextMessage % 256 ^ 4 = nextMessage := Nat.mod_eq_of_lt (by omega)
    have hz : (be 2 0).length = 2 := by simp
    have hm := Prim.C25_mappings_roundtrip E options padding ho hl
    rw [List.append_assoc] at hm
    have hr : HopRole.ofCode (roleFlag role % 256 ^ 1) = some role := by cases role <;> decide
    simp only [Build.ShortRecord.parse, Build.ShortRecord.parseFrame, shortRecord, layout_num, layout_raw, layout_nil, List.append_nil, List.append_assoc, beU_be,
      bind_some_pair, e1, e2, e3, takeN_append h1, takeN_append hz, hm, hr, bind_some_val]
    simp [takeN]

/-- C274: what is in tunnel messages. -/
theorem C274_fragments (k : Tunnel.Kind) (m r : Bytes) (hk : k.Ok) (hm : m.length < 2 ^ 16) :
    k.serialize ++ be 2 m.length ++ m = layout (fragment k m) ∧ Tunnel.parseBlock (layout (fragment k m) ++ r) = some (⟨k, m⟩, r) := by
  have e : k.serialize ++ be 2 m.length ++ m = layout (fragment k m) := by
    cases k with
    | unfragmented d => cases d <;> simp [Tunnel.Kind.serialize, fragment, deliveryBits, deliveryFields, Tunnel.DI.code, Tunnel.DI.fields]
    | first id d => cases d <;> simp [Tunnel.Kind.serialize, fragment, deliveryBits, deliveryFields, Tunnel.DI.code, Tunnel.DI.fields]
    | middle id n => simp [Tunnel.Kind.serialize, fragment, Nat.mod_eq_of_lt hk.2, Nat.mul_comm]
    | last id n => simp [Tunnel.Kind.serialize, fragment, Nat.mod_eq_of_lt hk.2, Nat.mul_comm]
  refine ⟨e, ?_⟩
  rw [← e]
  have := Tunnel.parseBlock_ok k hk m r hm
  simpa using this

theorem fragments_read (bs : List (Tunnel.Kind × Bytes)) (hb : ∀ b ∈ bs, b.1.Ok ∧ b.2.length < 2 ^ 16) (hne : bs ≠ []) (fuel : Nat) (hf : bs.length ≤ fuel) :
    Tunnel.parseInner fuel (layout (bs.flatMap fun b => fragment b.1 b.2)) = some (bs.map fun b => ⟨b.1, b.2⟩) := by
  induction bs generalizing fuel with
  | nil => exact absurd rfl hne
  | cons b bs ih =>
    obtain ⟨k, m⟩ := b
    obtain ⟨fuel, rfl⟩ : ∃ n, fuel = n + 1 := ⟨fuel - 1, by simp at hf; omega⟩
    obtain ⟨hk, hm⟩ := hb (k, m) (by simp)
    rw [List.flatMap_cons, layout_append, Tunnel.parseInner, (C274_fragments k m _ hk hm).2]
    simp only [bind_some_pair]
    cases bs with
    | nil => simp
    | cons c bs =>
      have hc : (layout ((c :: bs).flatMap fun b => fragment b.1 b.2)).isEmpty = false := by
        obtain ⟨k', m'⟩ := c
        obtain ⟨hk', hm'⟩ := hb (k', m') (by simp)
        rw [List.flatMap_cons, layout_append, ← (C274_fragments k' m' [] hk' hm').1]
        have := k'.serialize_pos
        rw [List.isEmpty_eq_false_iff]
        intro h0
        have := congrArg List.length h0
        simp only [List.length_append, List.length_nil] at this
        omega
      rw [hc, ih (fun x hx => hb x (by simp [hx])) (by simp) fuel (by simpa using hf)]
      simp

/-- C274: a tunnel message is made as one of the specification, and every one of the specification is opened, with any number of messages and fragments
in it and any padding. -/
theorem C274_tunnel_messages (sha : Bytes → Bytes) (hsha : Tunnel.ShaOk sha) (tunnel : Nat) (iv padding : Bytes) (hiv : iv.length = 16)
    (hp : ∀ b ∈ padding, b ≠ 0) :
    (∀ (k : Tunnel.Kind) m size rnd pad, Tunnel.serialize sha tunnel k.serialize size m (some pad) iv rnd =
      layout (tunnelMessage sha tunnel iv (Tunnel.padSlice pad (size - m.length) rnd) (k.serialize ++ be 2 m.length ++ m))) ∧
    ∀ bs : List (Tunnel.Kind × Bytes), bs ≠ [] → (∀ b ∈ bs, b.1.Ok ∧ b.2.length < 2 ^ 16) →
      let m := layout (tunnelMessage sha tunnel iv padding (layout (bs.flatMap fun b => fragment b.1 b.2)))
      Tunnel.openPayload sha (m.drop 20) ((m.drop 4).take 16) = some (bs.map fun b => ⟨b.1, b.2⟩) := by
  refine ⟨?_, ?_⟩
  · intro k m size rnd pad
    simp [Tunnel.serialize, tunnelMessage, Tunnel.checksum, be]
  · intro bs hne hb m
    have hpos : layout (bs.flatMap fun b => fragment b.1 b.2) ≠ [] := by
      cases bs with
      | nil => exact absurd rfl hne
      | cons c bs =>
        obtain ⟨k', m'⟩ := c
        obtain ⟨hk', hm'⟩ := hb (k', m') (by simp)
        rw [List.flatMap_cons, layout_append, ← (C274_fragments k' m' [] hk' hm').1]
        have := k'.serialize_pos
        intro h0
        have := congrArg List.length h0
        simp only [List.length_append, List.length_nil] at this
        omega
    generalize hx : layout (bs.flatMap fun b => fragment b.1 b.2) = x at hpos m
    have e : m = be 4 tunnel ++ (iv ++ ((sha (x ++ iv)).take 4 ++ (padding ++ (0 :: x)))) := by
      simp only [m, tunnelMessage, layout_num, layout_raw, layout_nil, List.append_nil, hx]
      rfl
    have h4 : (be 4 tunnel).length = 4 := by simp
    have e1 : (m.drop 4).take 16 = iv := by rw [e, List.drop_left' h4, List.take_left' hiv]
    have e2 : m.drop 20 = (sha (x ++ iv)).take 4 ++ (padding ++ (0 :: x)) := by
      rw [e, ← List.append_assoc, List.drop_left' (by simp [hiv])]
    rw [e1, e2, Tunnel.openPayload_layout sha hsha padding x iv hp (List.length_pos_iff.mpr hpos), Tunnel.parseBlocks]
    subst hx
    refine fragments_read bs hb hne _ ?_
    have hlen : ∀ bs : List (Tunnel.Kind × Bytes), (∀ b ∈ bs, b.1.Ok ∧ b.2.length < 2 ^ 16) → bs.length ≤ (layout (bs.flatMap fun b => fragment b.1 b.2)).length := by
      intro bs
      induction bs with
      | nil => intro _; simp
      | cons c bs ih =>
        intro hb
        obtain ⟨k', m'⟩ := c
        obtain ⟨hk', hm'⟩ := hb (k', m') (by simp)
        have := ih fun x hx => hb x (by simp [hx])
        have := k'.serialize_pos
        rw [List.flatMap_cons, layout_append, ← (C274_fragments k' m' [] hk' hm').1]
        simp only [List.length_append, List.length_cons]
        omega
    have := hlen bs hb
    omega

/-- What the blocks of the specification stand for: times in whole seconds. -/
theorem garlic_block (b : Garlic.Block) (hb : b.Ok ∨ ∃ p, b = .padding p ∧ p.length < 2 ^ 16) (r : Bytes) (fuel : Nat) :
    ∃ fs, garlicBlock b = some fs ∧ 0 < (layout fs).length ∧ Garlic.parseFrame (fuel + 1) (layout fs ++ r) = some (b.onWire, r) ∧
      (b.Ok → b.serialize = some (layout fs)) := by
  rcases hb with hb | ⟨p, rfl, hp⟩
  · have key : ∀ fs, garlicBlock b = some fs → b.serialize = some (layout fs) → 0 < (layout fs).length →
        ∃ fs, garlicBlock b = some fs ∧ 0 < (layout fs).length ∧ Garlic.parseFrame (fuel + 1) (layout fs ++ r) = some (b.onWire, r) ∧
          (b.Ok → b.serialize = some (layout fs)) :=
      fun fs h1 h2 h3 => ⟨fs, h1, h3, Garlic.parseFrame_serialize b hb _ r h2 fuel, fun _ => h2⟩
    cases b with
    | dateTime ts => exact key _ rfl (by simp [Garlic.Block.serialize, block]) (by simp [block] <;> omega)
    | termination => cases hb
    | options => cases hb
    | messageNumber => cases hb
    | padding _ => cases hb
    | ackRequest => exact key _ rfl (by simp [Garlic.Block.serialize, block]) (by simp [block] <;> omega)
    | nextKey k =>
      cases k with
      | forward id k rev =>
        obtain ⟨_, hk, ho⟩ := hb
        cases k with
        | none =>
          have : rev = true := by simpa using ho
          subst this
          exact key _ rfl (by simp [Garlic.Block.serialize, Garlic.forwardFlag, block]) (by simp [block] <;> omega)
        | some k =>
          have := hk k rfl
          cases rev <;> exact key _ rfl (by simp [Garlic.Block.serialize, Garlic.forwardFlag, block, this]) (by simp [block] <;> omega)
      | reverse id k =>
        cases k with
        | none => exact key _ rfl (by simp [Garlic.Block.serialize, block]) (by simp [block] <;> omega)
        | some k =>
          have := hb.2 k rfl
          exact key _ rfl (by simp [Garlic.Block.serialize, block, this]) (by simp [block] <;> omega)
    | ack l =>
      have hl : ∀ l : List (Nat × Nat), layout (l.flatMap fun a => [num 2 a.1, num 2 a.2]) = (l.map fun a => be 2 a.1 ++ be 2 a.2).flatten := by
        intro l
        induction l with
        | nil => rfl
        | cons a l ih => rw [List.flatMap_cons, layout_append, ih]; simp
      have hn : ∀ l : List (Nat × Nat), ((l.map fun a => be 2 a.1 ++ be 2 a.2).flatten).length = l.length * 4 := by
        intro l
        induction l with
        | nil => rfl
        | cons a l ih => rw [List.map_cons, List.flatten_cons, List.length_append, ih]; simp; omega
      have h14 := hb.1
      exact key _ rfl (by simp only [Garlic.Block.serialize, block, layout_num, hl, hn, List.append_assoc]; rw [Nat.mod_eq_of_lt (by omega)]) (by simp [block] <;> omega)
    | clove t id exp d body =>
      refine key _ rfl ?_ (by simp [block] <;> omega)
      obtain ⟨_, _, hd, _⟩ := hb
      cases d with
      | localNode => simp [Garlic.Block.serialize, block, cloveDelivery, Garlic.Delivery.len, Garlic.Delivery.serialize, type_code, asSecs]; congr 1; omega
      | destination h => 
        have hd : h.length = 32 := hd
        simp [Garlic.Block.serialize, block, cloveDelivery, Garlic.Delivery.len, Garlic.Delivery.serialize, type_code, asSecs, hd]; congr 1; omega
      | router h => 
        have hd : h.length = 32 := hd
        simp [Garlic.Block.serialize, block, cloveDelivery, Garlic.Delivery.len, Garlic.Delivery.serialize, type_code, asSecs, hd]; congr 1; omega
      | tunnel h id => 
        have hd' : h.length = 32 := hd.1
        simp [Garlic.Block.serialize, block, cloveDelivery, Garlic.Delivery.len, Garlic.Delivery.serialize, type_code, asSecs, hd']; congr 1; omega
  · refine ⟨_, rfl, by simp [block] <;> omega, ?_, fun h => by cases h⟩
    have := Garlic.C22_padding_block_parsed p r hp fuel
    simp only [block, layout_num, layout_raw, layout_nil, List.append_nil] at this ⊢
    simpa [Garlic.Block.onWire] using this

theorem garlic_read (bs : List Garlic.Block) (hb : ∀ b ∈ bs, b.Ok ∨ ∃ p, b = .padding p ∧ p.length < 2 ^ 16) (hne : bs ≠ []) (fs : List (List Field))
    (hf : bs.mapM garlicBlock = some fs) (fuel : Nat) (hl : bs.length ≤ fuel) :
    Garlic.parseInner fuel (layout fs.flatten) = some (bs.map Garlic.Block.onWire) ∧ bs.length ≤ (layout fs.flatten).length := by
  induction bs generalizing fs fuel with
  | nil => exact absurd rfl hne
  | cons b bs ih =>
    obtain ⟨fuel, rfl⟩ : ∃ n, fuel = n + 1 := ⟨fuel - 1, by simp at hl; omega⟩
    rw [List.mapM_cons] at hf
    obtain ⟨f, e1, hf⟩ := Option.bind_eq_some_iff.mp hf
    obtain ⟨gs, e2, hf⟩ := Option.bind_eq_some_iff.mp hf
    obtain rfl : f :: gs = fs := by simpa using hf
    obtain ⟨f', h1, h2, h3, _⟩ := garlic_block b (hb b (by simp)) (layout gs.flatten) (layout (f :: gs).flatten).length
    obtain rfl : f = f' := by rw [e1] at h1; exact Option.some.inj h1
    rw [List.flatten_cons, layout_append] at h3 ⊢
    rw [Garlic.parseInner, h3]
    simp only [bind_some_pair]
    cases bs with
    | nil =>
      obtain rfl : gs = [] := by simpa using e2.symm
      simp; omega
    | cons c bs =>
      obtain ⟨i1, i2⟩ := ih (fun x hx => hb x (by simp [hx])) (by simp) gs e2 fuel (by simpa using hl)
      have hc : (layout gs.flatten).isEmpty = false := by
        rw [List.isEmpty_eq_false_iff]
        intro h0
        rw [h0] at i2
        simp at i2
      rw [hc, i1]
      simp only [List.length_append, List.length_cons] at i2 ⊢
      exact ⟨by simp, by omega⟩

/-- C274: the contents of garlic messages, with any number of blocks of the kinds that are understood and of padding in any place. -/
theorem C274_garlic (bs : List Garlic.Block) (hne : bs ≠ []) (hb : ∀ b ∈ bs, b.Ok ∨ ∃ p, b = .padding p ∧ p.length < 2 ^ 16) :
    ∃ fs, bs.mapM garlicBlock = some fs ∧ Garlic.parse (layout fs.flatten) = some (bs.map Garlic.Block.onWire) ∧
      ((∀ b ∈ bs, b.Ok) → Garlic.build bs = some (layout fs.flatten)) := by
  have key : ∀ bs : List Garlic.Block, (∀ b ∈ bs, b.Ok ∨ ∃ p, b = .padding p ∧ p.length < 2 ^ 16) →
      ∃ fs, bs.mapM garlicBlock = some fs ∧ ((∀ b ∈ bs, b.Ok) → Garlic.build bs = some (layout fs.flatten)) := by
    intro bs
    induction bs with
    | nil => intro _; exact ⟨[], rfl, fun _ => rfl⟩
    | cons b bs ih =>
      intro hb
      obtain ⟨fs, h1, h2⟩ := ih fun x hx => hb x (by simp [hx])
      obtain ⟨f, g1, _, _, g4⟩ := garlic_block b (hb b (by simp)) [] 0
      refine ⟨f :: fs, by simp [List.mapM_cons, g1, h1], fun h => ?_⟩
      simp [Garlic.build, g4 (h b (by simp)), h2 fun x hx => h x (by simp [hx])]
  obtain ⟨fs, h1, h2⟩ := key bs hb
  have hn := (garlic_read bs hb hne fs h1 bs.length (Nat.le_refl _)).2
  exact ⟨fs, h1, (garlic_read bs hb hne fs h1 _ (by omega)).1, h2⟩

/-- The options of a packet as they are on the wire. -/
def wireOptions (b : Pkt.Builder) (sig : Bytes) : List Field :=
  streamOptions b.requestedDelay (b.destination.map (·.serialized)) b.maxPacketSize (if b.signature then some sig else none)

/-- A packet as it is on the wire. -/
def wirePacket (b : Pkt.Builder) (sig : Bytes) : List Field :=
  streamPacket b.sendStreamId b.recvStreamId b.seq b.ackThrough (b.nacks.getD []) b.resendDelay
    (streamFlags b.synchronize b.close b.reset b.signature b.destination.isSome b.requestedDelay.isSome b.maxPacketSize.isSome b.echo b.noAck)
    (wireOptions b sig) (b.payload.getD [])

theorem packet_bytes (b : Pkt.Builder) (sig : Bytes) : b.bytes sig = layout (wirePacket b sig) := by
  have ho : b.options sig = layout (wireOptions b sig) := by
    simp only [Pkt.Builder.options, Pkt.Builder.optionFields, wireOptions, streamOptions, layout_append]
    cases b.requestedDelay <;> cases b.destination <;> cases b.maxPacketSize <;> cases b.signature <;> simp [Pkt.putOpt, Pkt.putDest]
  have hf : b.flags = streamFlags b.synchronize b.close b.reset b.signature b.destination.isSome b.requestedDelay.isSome b.maxPacketSize.isSome b.echo b.noAck := by
    have : ∀ x : Bool, x.toNat = if x then 1 else 0 := by intro x; cases x <;> rfl
    simp only [Pkt.Builder.flags, streamFlags, this]
    repeat' split
    all_goals omega
  simp only [Pkt.Builder.bytes, wirePacket, streamPacket, ho, hf]
  simp

/-- C274: packets of streams: those that are sent, unsigned or signed (over the packet with zeros in place of the signature), and those that are read. -/
theorem C274_streaming (E : Prim.Env) (b : Pkt.Builder) (sign : Bytes → Bytes) (hs : ∀ m, (sign m).length = 64) :
    (b.signature = false → b.build = some (layout (wirePacket b []))) ∧
    (b.signature = true → b.buildAndSign sign = some (layout (wirePacket b (sign (layout (wirePacket b (List.replicate 64 0))))))) ∧
    ∀ sig, b.Ok E → (b.signature = true → ∃ d, b.destination = some d ∧ sig.length = d.key.sigLen) → (layout (wireOptions b sig)).length < 2 ^ 16 →
      ∃ p, Pkt.Packet.parse E (layout (wirePacket b sig)) = some p ∧
        (p.sendStreamId, p.recvStreamId, p.seq, p.ackThrough, p.nacks, p.resendDelay, p.payload) =
          (b.sendStreamId, b.recvStreamId, b.seq, b.ackThrough, b.nacks.getD [], b.resendDelay, b.payload.getD []) ∧
        (p.flags.synchronize, p.flags.close, p.flags.reset, p.flags.echo, p.flags.noAck) = (b.synchronize, b.close, b.reset, b.echo, b.noAck) ∧
        (p.flags.destination, p.flags.requestedDelay, p.flags.maxPacketSize, p.flags.signature, p.flags.offline) =
          (b.destination, b.requestedDelay, b.maxPacketSize, if b.signature then some sig else none, none) := by
  refine ⟨?_, ?_, ?_⟩
  · intro h
    rw [← packet_bytes]; simp [Pkt.Builder.build, h]
  · intro h
    rw [← packet_bytes, ← packet_bytes]
    exact Pkt.signed_bytes b h sign hs
  · intro sig hok hsig hlen
    have ho : b.options sig = layout (wireOptions b sig) := by
      simp only [Pkt.Builder.options, Pkt.Builder.optionFields, wireOptions, streamOptions, layout_append]
      cases b.requestedDelay <;> cases b.destination <;> cases b.maxPacketSize <;> cases b.signature <;> simp [Pkt.putOpt, Pkt.putDest]
    have := Pkt.parse_bytes hok sig hsig (by rw [ho]; exact hlen)
    rw [packet_bytes] at this
    refine ⟨_, this, rfl, ?_, rfl⟩
    obtain ⟨_, h0, h1, h2, _, _, _, _, h9, h10, _⟩ := Pkt.flags_bits b
    simp only [Pkt.Flags.synchronize, Pkt.Flags.close, Pkt.Flags.reset, Pkt.Flags.echo, Pkt.Flags.noAck, Pkt.Builder.expected, h0, h1, h2, h9, h10]

/-- C274: payloads: the ports are in bytes 4 to 7 of the header of the compressed data and the number of the protocol is in byte 9; other bytes are those of
the compressed data. -/
theorem C274_payloads (G : Datagram.Gzip) (hG : G.Ok) (src dst : Nat) (hs : src < 2 ^ 16) (hd : dst < 2 ^ 16) (p : Datagram.Protocol) (data c : Bytes)
    (hc : G.compress data = some c) :
    Datagram.build G src dst p data = some (layout [raw (c.take 4), num 2 src, num 2 dst, raw ((c.drop 8).take 1), raw [protocolNumber p], raw (c.drop 10)]) := by
  obtain ⟨h10, _⟩ := hG data c hc
  match c, h10 with
  | a0 :: a1 :: a2 :: a3 :: a4 :: a5 :: a6 :: a7 :: a8 :: a9 :: t, _ =>
    rw [Datagram.build, hc]
    simp only [Option.map_some, Datagram.put2, List.set_cons_succ, List.set_cons_zero, Option.some.injEq]
    have hp : p.code = protocolNumber p := by cases p <;> rfl
    simp only [layout_raw, layout_num, layout_nil, hp, List.take_succ_cons, List.take_zero, List.drop_succ_cons, List.drop_zero, be, Nat.pow_one, Nat.pow_zero, Nat.div_one,
      List.cons_append, List.nil_append, List.append_nil]
  | [], h | [_], h | [_, _], h | [_, _, _], h | [_, _, _, _], h | [_, _, _, _, _], h | [_, _, _, _, _, _], h | [_, _, _, _, _, _, _], h
  | [_, _, _, _, _, _, _, _], h | [_, _, _, _, _, _, _, _, _], h => simp at h

/-! ## Cases that meet the hypotheses -/

example : layout (shortMessage .shortTunnelBuild 0x01020304 7 [9, 9]) = [0, 11, 25, 1, 2, 3, 4, 0, 0, 0, 7, 9, 9] := by decide +kernel
example : layout (fragment (.first 0x0a0b0c0d (.tunnel 5 [1, 2])) [7]) = [0x28, 0, 0, 0, 5, 1, 2, 0x0a, 0x0b, 0x0c, 0x0d, 0, 1, 7] := by decide +kernel
example : (Garlic.Block.clove .data 7 9000000000 (.destination (List.replicate 32 3)) [1, 2, 3]).Ok ∧
    (Garlic.Block.nextKey (.forward 1 (some (List.replicate 32 4)) true)).Ok ∧ (Garlic.Block.ack [(0, 17), (3, 65535)]).Ok := by
  simp [Garlic.Block.Ok, Garlic.Delivery.Ok]
example : ((Garlic.Block.padding [0, 0] :: [.ackRequest, .dateTime 5]).mapM garlicBlock).map (layout ·.flatten) =
    some [254, 0, 2, 0, 0, 9, 0, 1, 0, 0, 0, 4, 0, 0, 0, 5] := by decide +kernel
example : layout (lookupMessage [1] [2] (some 3) .exploration [[4], [5]]) = [1, 2, 13, 0, 0, 0, 3, 0, 2, 4, 5] := by decide +kernel
example : layout (wirePacket { sendStreamId := 1, recvStreamId := 2, synchronize := true, requestedDelay := some 3, maxPacketSize := some 1812, nacks := some [6] } []) =
    [0, 0, 0, 1, 0, 0, 0, 2, 0, 0, 0, 0, 0, 0, 0, 0, 1, 0, 0, 0, 6, 0, 0, 193, 0, 4, 0, 3, 7, 20] := by decide +kernel
example : (Tunnel.Kind.last 9 63).Ok ∧ (Tunnel.Kind.unfragmented (.router (List.replicate 32 1))).Ok := by
  constructor <;> simp [Tunnel.Kind.Ok, Tunnel.DI.Ok]

end Emissary.Wire
