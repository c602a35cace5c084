import Verif.Model.Bytes
/-!
# I2NP message framing

Models `emissary-core/src/i2np/mod.rs` (message types, hop roles, `MessageBuilder`, `Message`),
`i2np/tunnel/gateway.rs`, `i2np/delivery_status.rs`, `i2np/database/{search_reply,lookup,store}.rs`.

Simplifications: a `Duration` is a number of nanoseconds; a `RouterId` is its 32-byte hash (in the code it is the
base64 text of the hash, decoded again for serialization); `u32`/`u64` values are naturals, so builders truncate
explicitly through `be`. SHA-256 is a parameter.
-/
namespace Emissary.I2np
open Emissary

/-- `core::time::Duration` in nanoseconds. Standard or external library, not in /repo. -/
abbrev Duration := Nat
/-- `Duration::as_secs` / `from_secs` / `as_millis` / `from_millis`. Standard or external library, not in /repo. -/
def asSecs (d : Duration) : Nat := d / 1000000000
/-- Standard or external library, not in /repo. -/
def fromSecs (s : Nat) : Duration := s * 1000000000
/-- Standard or external library, not in /repo. -/
def asMillis (d : Duration) : Nat := d / 1000000
/-- Standard or external library, not in /repo. -/
def fromMillis (ms : Nat) : Duration := ms * 1000000

/-- `MessageType`, i2np/mod.rs:66-108. -/
inductive MessageType where
  | databaseStore | databaseLookup | databaseSearchReply | deliveryStatus | garlic | tunnelData
  | tunnelGateway | data | tunnelBuild | tunnelBuildReply | variableTunnelBuild
  | variableTunnelBuildReply | shortTunnelBuild | outboundTunnelBuildReply
deriving Repr, DecidableEq

/-- `MessageType::as_u8`, i2np/mod.rs:112-129. -/
def MessageType.code : MessageType → Nat
  | .databaseStore => 1
  | .databaseLookup => 2
  | .databaseSearchReply => 3
  | .deliveryStatus => 10
  | .garlic => 11
  | .tunnelData => 18
  | .tunnelGateway => 19
  | .data => 20
  | .tunnelBuild => 21
  | .tunnelBuildReply => 22
  | .variableTunnelBuild => 23
  | .variableTunnelBuildReply => 24
  | .shortTunnelBuild => 25
  | .outboundTunnelBuildReply => 26

/-- `MessageType::from_u8`, i2np/mod.rs:132-157. -/
def MessageType.ofCode : Nat → Option MessageType
  | 1 => some .databaseStore
  | 2 => some .databaseLookup
  | 3 => some .databaseSearchReply
  | 10 => some .deliveryStatus
  | 11 => some .garlic
  | 18 => some .tunnelData
  | 19 => some .tunnelGateway
  | 20 => some .data
  | 21 => some .tunnelBuild
  | 22 => some .tunnelBuildReply
  | 23 => some .variableTunnelBuild
  | 24 => some .variableTunnelBuildReply
  | 25 => some .shortTunnelBuild
  | 26 => some .outboundTunnelBuildReply
  | _ => none

/-- `HopRole`, i2np/mod.rs:162-171. -/
inductive HopRole where
  | inboundGateway | outboundEndpoint | participant
deriving Repr, DecidableEq

/-- `HopRole::as_u8`, i2np/mod.rs:175-181. -/
def HopRole.code : HopRole → Nat
  | .inboundGateway => 0x80
  | .outboundEndpoint => 0x40
  | .participant => 0x00

/-- `HopRole::from_u8`, i2np/mod.rs:184-198. -/
def HopRole.ofCode : Nat → Option HopRole
  | 0x80 => some .inboundGateway
  | 0x40 => some .outboundEndpoint
  | 0x00 => some .participant
  | _ => none

/-- `Message`, i2np/mod.rs:369-381. -/
structure Message where
  type : MessageType
  id : Nat
  expiration : Duration
  payload : Bytes
deriving Repr, DecidableEq

/-- `MessageBuilder::Short::build`, i2np/mod.rs:341-359 (and `Message::serialize_short`, 483-490). -/
def Message.serializeShort (m : Message) : Bytes :=
  be 2 (m.payload.length + 9) ++ be 1 m.type.code ++ be 4 m.id ++ be 4 (asSecs m.expiration) ++ m.payload

/-- `MessageBuilder::Standard::build`, i2np/mod.rs:323-340; `sha` is SHA-256. -/
def Message.serializeStandard (sha : Bytes → Bytes) (m : Message) : Bytes :=
  be 1 m.type.code ++ be 4 m.id ++ be 8 (asMillis m.expiration) ++ be 2 m.payload.length ++
    (sha m.payload).take 1 ++ m.payload

/-- `Message::parse_frame_short`, i2np/mod.rs:408-431. -/
def Message.parseShort : Parser Message := fun input => do
  let (size, rest) ← beU 2 input
  let (ty, rest) ← beU 1 rest
  let (id, rest) ← beU 4 rest
  let (exp, rest) ← beU 4 rest
  if size ≤ 9 then none
  else do
    let (payload, rest) ← takeN (size - 9) rest
    let ty ← MessageType.ofCode ty
    return ({ type := ty, id := id, expiration := fromSecs exp, payload := payload }, rest)

/-- `Message::parse_frame_standard`, i2np/mod.rs:436-460. The checksum byte is read and ignored. -/
def Message.parseStandard : Parser Message := fun input => do
  let (ty, rest) ← beU 1 input
  let (id, rest) ← beU 4 rest
  let (exp, rest) ← beU 8 rest
  let (size, rest) ← beU 2 rest
  let (_, rest) ← beU 1 rest
  let (payload, rest) ← takeN size rest
  if payload.isEmpty then none
  else do
    let ty ← MessageType.ofCode ty
    return ({ type := ty, id := id, expiration := fromMillis exp, payload := payload }, rest)

/-- `SubsystemKind`, subsystem.rs. subsystem.rs 29. -/
inductive SubsystemKind where
  | netDb | tunnel
deriving Repr, DecidableEq

/-- `Message::destination`, i2np/mod.rs:473-480. -/
def Message.destination (m : Message) : SubsystemKind :=
  match m.type with
  | .databaseStore | .databaseLookup | .databaseSearchReply => .netDb
  | _ => .tunnel

/-- `Message::is_expired`, i2np/mod.rs:513-515; `now` is the time since the UNIX epoch. -/
def Message.isExpired (m : Message) (now : Duration) : Bool := decide (m.expiration < now)

/-- `Message::serialized_len_short`, i2np/mod.rs:503-505. -/
def Message.serializedLenShort (m : Message) : Nat := m.payload.length + 9 + 2
/-- `Message::serialized_len_long`, i2np/mod.rs:508-510. -/
def Message.serializedLenLong (m : Message) : Nat := m.payload.length + 16

/-! ## Tunnel gateway -/

/-- `TunnelGateway`, i2np/tunnel/gateway.rs:31-37. -/
structure TunnelGateway where
  tunnelId : Nat
  payload : Bytes
deriving Repr, DecidableEq

/-- `TunnelGateway::parse_frame`, gateway.rs:43-55. -/
def TunnelGateway.parse : Parser TunnelGateway := fun input => do
  let (id, rest) ← beU 4 input
  let (size, rest) ← beU 2 rest
  let (payload, rest) ← takeN size rest
  return ({ tunnelId := id, payload := payload }, rest)

/-- `TunnelGateway::serialize`, gateway.rs:63-71. -/
def TunnelGateway.serialize (m : TunnelGateway) : Bytes :=
  be 4 m.tunnelId ++ be 2 m.payload.length ++ m.payload

/-! ## Delivery status -/

/-- `DeliveryStatus`, i2np/delivery_status.rs:28-34. -/
structure DeliveryStatus where
  messageId : Nat
  timestamp : Duration
deriving Repr, DecidableEq

/-- `DeliveryStatus::parse_frame`, delivery_status.rs:40-51. -/
def DeliveryStatus.parse : Parser DeliveryStatus := fun input => do
  let (id, rest) ← beU 4 input
  let (ts, rest) ← beU 8 rest
  return ({ messageId := id, timestamp := fromMillis ts }, rest)

/-- `DeliveryStatus::serialize`, delivery_status.rs:59-66. -/
def DeliveryStatus.serialize (m : DeliveryStatus) : Bytes :=
  be 4 m.messageId ++ be 8 (asMillis m.timestamp)

/-! ## Database search reply -/

/-- The `(0..n).try_fold` loops of search_reply.rs:53-60 and lookup.rs:161-171. -/
def takeHashes : Nat → Parser (List Bytes)
  | 0, input => some ([], input)
  | n + 1, input => do
    let (h, rest) ← takeN 32 input
    let (hs, rest) ← takeHashes n rest
    return (h :: hs, rest)

/-- `DatabaseSearchReply`, search_reply.rs:35-44. -/
structure SearchReply where
  sender : Bytes
  key : Bytes
  routers : List Bytes
deriving Repr, DecidableEq

/-- `DatabaseSearchReply::parse_frame`, search_reply.rs:50-81. -/
def SearchReply.parse : Parser SearchReply := fun input => do
  let (key, rest) ← takeN 32 input
  let (n, rest) ← beU 1 rest
  let (routers, rest) ← takeHashes n rest
  let (sender, rest) ← takeN 32 rest
  return ({ sender := sender, key := key, routers := routers }, rest)

/-- `DatabaseSearchReply::serialize`, search_reply.rs:89-102. -/
def SearchReply.serialize (m : SearchReply) : Bytes :=
  m.key ++ be 1 m.routers.length ++ m.routers.flatten ++ m.sender

/-! ## Database lookup -/

/-- `LookupType`, lookup.rs:40-54. -/
inductive LookupType where
  | normal | leaseSet | router | exploration
deriving Repr, DecidableEq

/-- `LookupType::from_u8`, lookup.rs:58-74 (`(flag >> 2) & 3`; the last arm is unreachable). -/
def LookupType.ofFlag (flag : Nat) : Option LookupType :=
  match flag / 4 % 4 with
  | 0 => some .normal
  | 1 => some .leaseSet
  | 2 => some .router
  | 3 => some .exploration
  | _ => none

/-- `LookupType::as_u8`, lookup.rs:77-84. -/
def LookupType.code : LookupType → Nat
  | .normal => 0
  | .leaseSet => 4
  | .router => 8
  | .exploration => 12

/-- `ReplyType`, lookup.rs:88-103. -/
inductive LookupReply where
  | tunnel (tunnelId : Nat) (router : Bytes)
  | router (router : Bytes)
deriving Repr, DecidableEq

/-- `DatabaseLookup`, lookup.rs:106-118. `ignore` is a `HashSet` in the code; here the list in wire order
(the set is its set of members). -/
structure DatabaseLookup where
  ignore : List Bytes
  key : Bytes
  lookup : LookupType
  reply : LookupReply
deriving Repr, DecidableEq

/-- `MAX_ROUTERS_TO_IGNORE`, lookup.rs:36. -/
def maxRoutersToIgnore : Nat := 512

/-- The reply part of `DatabaseLookup::parse_frame`, lookup.rs:131-148. -/
def LookupReply.parse (flag : Nat) (hash : Bytes) : Parser LookupReply := fun rest =>
  if flag % 2 = 1 then do
    let (tid, rest) ← beU 4 rest
    return (.tunnel tid hash, rest)
  else some (.router hash, rest)

/-- `DatabaseLookup::parse_frame`, lookup.rs:124-199. -/
def DatabaseLookup.parse : Parser DatabaseLookup := fun input => do
  let (key, rest) ← takeN 32 input
  let (router, rest) ← takeN 32 rest
  let (flag, rest) ← beU 1 rest
  let lookup ← LookupType.ofFlag flag
  let (reply, rest) ← LookupReply.parse flag router rest
  let (n, rest) ← beU 2 rest
  if n > maxRoutersToIgnore then none
  else do
    let (ignore, rest) ← takeHashes n rest
    if flag / 2 % 2 = 1 ∨ flag / 16 % 2 = 1 then none
    else return ({ ignore := ignore, key := key, lookup := lookup, reply := reply }, rest)

/-- `DatabaseLookupBuilder::build`, lookup.rs:246-278. -/
def DatabaseLookup.serialize (m : DatabaseLookup) : Bytes :=
  m.key ++
    (match m.reply with
     | .tunnel tid router => router ++ be 1 (m.lookup.code + 1) ++ be 4 tid
     | .router router => router ++ be 1 m.lookup.code) ++
    be 2 m.ignore.length ++ m.ignore.flatten

/-! ## Database store -/

/-- `StoreType`, store.rs:39-54. -/
inductive StoreType where
  | routerInfo | leaseSet | leaseSet2 | encryptedLeaseSet | metaLeaseSet
deriving Repr, DecidableEq

/-- `StoreType::from_u8`, store.rs:58-69. -/
def StoreType.ofByte (b : Nat) : Option StoreType :=
  if b % 2 = 0 then some .routerInfo
  else match b / 2 % 8 with
    | 0 => some .leaseSet
    | 1 => some .leaseSet2
    | 2 => some .encryptedLeaseSet
    | 3 => some .metaLeaseSet
    | _ => none

/-- `StoreType::as_u8`, store.rs:72-80. -/
def StoreType.code : StoreType → Nat
  | .routerInfo => 0
  | .leaseSet => 1
  | .leaseSet2 => 3
  | .encryptedLeaseSet => 5
  | .metaLeaseSet => 7

/-- `ReplyType`, store.rs:84-108. -/
inductive StoreReply where
  | tunnel (token tunnelId : Nat) (router : Bytes)
  | router (token : Nat) (router : Bytes)
  | none
deriving Repr, DecidableEq

/-- `DatabaseStorePayload` / `DatabaseStoreKind`, store.rs:149-161, 358-370, with the parsed payload types as
parameters. -/
inductive StorePayload (RI LS : Type) where
  | routerInfo (ri : RI)
  | leaseSet2 (ls : LS)
deriving Repr, DecidableEq

/-- `DatabaseStore`, store.rs:192-204. -/
structure DatabaseStore (RI LS : Type) where
  key : Bytes
  payload : StorePayload RI LS
  reply : StoreReply
deriving Repr, DecidableEq

/-- The reply part of `DatabaseStore::parse_frame`, store.rs:222, 226-250. -/
def StoreReply.parse (token : Nat) : Parser StoreReply := fun rest =>
  if token = 0 then some (.none, rest)
  else do
    let (tid, rest) ← beU 4 rest
    let (hash, rest) ← takeN 32 rest
    if tid = 0 then return (.router token hash, rest)
    else return (.tunnel token tid hash, rest)

/-- `DatabaseStore::parse_frame`, store.rs:219-307. `riParse` is `gzip_decompress` followed by
`RouterInfo::parse`, `lsParse` is `LeaseSet2::parse_frame`. -/
def DatabaseStore.parse {RI LS : Type} (riParse : Bytes → Option RI) (lsParse : Parser LS) :
    Parser (DatabaseStore RI LS) := fun input => do
  let (key, rest) ← takeN 32 input
  let (ty, rest) ← beU 1 rest
  let (token, rest) ← beU 4 rest
  let ty ← StoreType.ofByte ty
  let (reply, rest) ← StoreReply.parse token rest
  match ty with
  | .routerInfo => do
    let (size, rest) ← beU 2 rest
    let (data, rest) ← takeN size rest
    let ri ← riParse data
    return ({ key := key, payload := .routerInfo ri, reply := reply }, rest)
  | .leaseSet2 => do
    let (ls, rest) ← lsParse rest
    return ({ key := key, payload := .leaseSet2 ls, reply := reply }, rest)
  | _ => none

/-- `ReplyType` part of `DatabaseStoreBuilder::build`, store.rs:427-448. -/
def StoreReply.serialize : StoreReply → Bytes
  | .none => be 4 0
  | .tunnel token tid hash => be 4 token ++ be 4 tid ++ hash
  | .router token hash => be 4 token ++ be 4 0 ++ hash

/-- `DatabaseStoreBuilder::build`, store.rs:411-459; the payload is already serialized (and compressed). -/
def storeBuild (key : Bytes) (kind : StorePayload Bytes Bytes) (reply : StoreReply) : Bytes :=
  key ++
    (match kind with
     | .routerInfo _ => be 1 StoreType.routerInfo.code
     | .leaseSet2 _ => be 1 StoreType.leaseSet2.code) ++
    reply.serialize ++
    (match kind with
     | .routerInfo ri => be 2 ri.length ++ ri
     | .leaseSet2 ls => ls)

/-- Skipping the reply fields, store.rs:320-328. -/
def skipReply (token : Nat) (rest : Bytes) : Option Bytes :=
  if token = 0 then some rest
  else do
    let (_, rest) ← beU 4 rest
    let (_, rest) ← takeN 32 rest
    return rest

/-- `extraw_raw_data_payload`, store.rs:315-338; `none` is the `expect` panic. -/
def extractRaw (routerInfo : Bool) (input : Bytes) : Option Bytes := do
  let (_, rest) ← takeN 32 input
  let (_, rest) ← beU 1 rest
  let (token, rest) ← beU 4 rest
  let rest ← skipReply token rest
  if routerInfo then do
    let (size, rest) ← beU 2 rest
    let (data, _) ← takeN size rest
    return data
  else return rest

end Emissary.I2np
