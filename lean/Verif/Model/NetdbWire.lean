import Verif.Model.NetdbRun
import Verif.Model.TunnelBuild
import Verif.Model.Primitives
/-!
# The messages of the network database

What `destination/lease_set.rs`, `netdb/query.rs` and `netdb/mod.rs` put on the wire for the messages `NetdbRun` knows by their meaning, and what the
network database task makes of a message it is given. Random values and the clock (nanoseconds) are arguments; `P` are the primitives of the tunnel model.
-/
namespace Emissary.NetdbWire
open Emissary Emissary.I2np
open Emissary.Ssu2 (Prims)

/-- The random values of one message: the id of the clove, the id of the message, the id of the message inside a tunnel message, the reply token of a
published router info and the ephemeral private key. destination/lease_set.rs 490, 562, 569, 593; netdb/mod.rs 503, 515, 1590, 1605. -/
structure Rnd where
  cloveId : Nat
  messageId : Nat
  innerId : Nat
  token : Nat
  esk : Bytes

/-- A message of one clove for the router with the key, as a standard message (destination/lease_set.rs 559-598, 664-702; netdb/query.rs 307-342).
`none` would be a panic of the builder. -/
def garlicTo (P : Prims) (now : Duration) (rnd : Rnd) (key : Bytes) (type : MessageType) (body : Bytes) : Option Bytes := do
  let plain ← Garlic.build [.dateTime (asSecs now % 2 ^ 32), .clove type rnd.cloveId (now + TBuild.i2npExpiration) .localNode body]
  let (k, tag) := TBuild.garlicOut P key rnd.esk
  let sealed := P.seal k 0 tag plain
  return (Message.mk .garlic rnd.messageId (now + TBuild.i2npExpiration) (be 4 (sealed.length + 32) ++ P.pub rnd.esk ++ sealed)).serializeStandard P.sha

/-- `create_database_store` (destination/lease_set.rs 478-599) once floodfill and inbound tunnel are chosen. -/
def storeRequest (P : Prims) (now : Duration) (rnd : Rnd) (ffKey key leaseSet : Bytes) (inb : NetdbRun.Lease) : Option Bytes :=
  garlicTo P now rnd ffKey .databaseStore (storeBuild key (.leaseSet2 leaseSet) (.tunnel rnd.token inb.tunnel inb.router))

/-- `create_database_lookup` (destination/lease_set.rs 608-706) and `create_lease_set_query` (netdb/query.rs 288-344) once floodfill and tunnels are
chosen. -/
def leaseSetRequest (P : Prims) (now : Duration) (rnd : Rnd) (ffKey key : Bytes) (inb : NetdbRun.Lease) : Option Bytes :=
  garlicTo P now rnd ffKey .databaseLookup (DatabaseLookup.serialize ⟨[], key, .leaseSet, .tunnel inb.tunnel inb.router⟩)

/-- `create_router_info_query` (netdb/query.rs 353-380). -/
def routerRequest (sha : Bytes → Bytes) (now : Duration) (rnd : Rnd) (key : Bytes) (inb : NetdbRun.Lease) : Bytes :=
  (Message.mk .databaseLookup rnd.messageId (now + TBuild.i2npExpiration)
    (DatabaseLookup.serialize ⟨[], key, .router, .tunnel inb.tunnel inb.router⟩)).serializeStandard sha

/-- `create_router_exploration` (netdb/query.rs 389-416). -/
def explorationRequest (sha : Bytes → Bytes) (now : Duration) (rnd : Rnd) (key : Bytes) (inb : NetdbRun.Lease) : Bytes :=
  (Message.mk .databaseLookup rnd.messageId (now + TBuild.i2npExpiration)
    (DatabaseLookup.serialize ⟨[], key, .exploration, .tunnel inb.tunnel inb.router⟩)).serializeStandard sha

/-- Type and payload of what the task sends: the delivery status (netdb/mod.rs 498-511, 535-548), the stores (567-573, 695-701, 756-764, 860-868), the search
replies (735-743, 839-847, 953-959) and the router's own info (1585-1601). -/
def content (localId : Bytes) (now : Duration) (rnd : Rnd) : NetdbRun.Msg → MessageType × Bytes
  | .status token _ => (.deliveryStatus, DeliveryStatus.serialize ⟨token, now⟩)
  | .storeLeaseSet key raw => (.databaseStore, storeBuild key (.leaseSet2 raw) .none)
  | .storeRouterInfo key raw => (.databaseStore, storeBuild key (.routerInfo raw) .none)
  | .searchReply key routers _ => (.databaseSearchReply, SearchReply.serialize ⟨localId, key, routers⟩)
  | .publish key raw => (.databaseStore, storeBuild key (.routerInfo raw) (.router rnd.token localId))

/-- The tunnel whose gateway a message is sent to. netdb/mod.rs 513-525, 961-981. -/
def gateway : NetdbRun.Msg → Option Nat
  | .status _ t => t
  | .searchReply _ _ t => t
  | _ => none

/-- A message handed to the transport: short, or inside a short tunnel message (netdb/mod.rs 498-553, 575-580, 703-708, 803-810, 907-914, 949-981,
1603-1608). -/
def toRouter (sha : Bytes → Bytes) (localId : Bytes) (now : Duration) (rnd : Rnd) (m : NetdbRun.Msg) : Bytes :=
  let c := content localId now rnd m
  match gateway m with
  | none => (Message.mk c.1 rnd.messageId (now + TBuild.i2npExpiration) c.2).serializeShort
  | some t =>
    (Message.mk .tunnelGateway rnd.messageId (now + TBuild.i2npExpiration)
      (TunnelGateway.mk t ((Message.mk c.1 rnd.innerId (now + TBuild.i2npExpiration) c.2).serializeStandard sha)).serialize).serializeShort

/-- An answer that goes through the exploratory tunnels (netdb/mod.rs 776-787, 880-891). -/
def toTunnel (sha : Bytes → Bytes) (localId : Bytes) (now : Duration) (rnd : Rnd) (m : NetdbRun.Msg) : Bytes :=
  let c := content localId now rnd m
  (Message.mk c.1 rnd.messageId (now + TBuild.i2npExpiration) c.2).serializeStandard sha

/-! ## Reading -/

/-- What `NetdbRun` keeps of a parsed lease set; times of leases are whole seconds (lease_set.rs 158-171). Not in the code: relates two models. -/
def view (l : Prim.LeaseSet2) (raw : Bytes) : NetdbRun.LSet := ⟨l.header.destination.hash, l.header.expires, l.leases.map fun x => x.expires / 1000000000, raw⟩

/-- The two types of reply routes of stores. Not in the code: relates two models. -/
def storeReply : StoreReply → NetdbRun.StoreReply
  | .none => .none
  | .tunnel token t r => .tunnel token t r
  | .router token r => .router token r

/-- The two types of reply routes of lookups. Not in the code: relates two models. -/
def lookupReply : LookupReply → NetdbRun.LookupReply
  | .tunnel t r => .tunnel t r
  | .router r => .router r

/-- The two types of lookup types. Not in the code: relates two models. -/
def lookupKind : LookupType → NetdbRun.LookupKind
  | .normal => .normal
  | .leaseSet => .leaseSet
  | .router => .router
  | .exploration => .exploration

/-- The reading part of `on_message` (netdb/mod.rs 1304-1350), `on_database_store` (991-1002, with the extraction of the raw bytes, 420, 593) and
`on_database_search_reply` (1139-1150): the event a message is, `none` for one that is ignored. `ri` is decompression and parsing of a router info; its
raw bytes are the compressed ones. -/
def read (E : Prim.Env) (ri : Bytes → Option NetdbRun.RInfo) (sender : Option Bytes) (m : Message) : Option NetdbRun.Op :=
  match m.type with
  | .databaseStore => do
    let (d, _) ← DatabaseStore.parse ri (Prim.LeaseSet2.parse E) m.payload
    match d.payload with
    | .routerInfo r => do
      let raw ← extractRaw true m.payload
      return .store sender d.key (.routerInfo { r with raw := raw }) (storeReply d.reply)
    | .leaseSet2 l => do
      let raw ← extractRaw false m.payload
      return .store sender d.key (.leaseSet (view l raw)) (storeReply d.reply)
  | .databaseLookup => do
    let (d, _) ← DatabaseLookup.parse m.payload
    return .lookup d.key (lookupKind d.lookup) (lookupReply d.reply) d.ignore
  | .databaseSearchReply => some (.search sender ((SearchReply.parse m.payload).map fun x => (x.1.key, x.1.routers, x.1.sender)))
  | _ => none

end Emissary.NetdbWire
